import Mathlib.Tactic
import Mathlib.LinearAlgebra.Matrix.PosDef
import Verif.Lemmas.Normal
import Verif.Spec.Results

/-!
# Standard errors, t-values, p-values and confidence intervals (C53; reporting half of C51)
-/

open Matrix

namespace Pylogit

open Spec

variable {n : ℕ}

/-! ## C53 -/

theorem storeInference_ok {sf : ℝ → ℝ} {params : Fin n → ℝ}
    {H F : Matrix (Fin n) (Fin n) ℝ} {r : Inference n} (h : storeInference sf params H F = .ok r) :
    IsUnit H.det ∧ r = ⟨(-1 : ℝ) • H⁻¹, fun i => sqrtNaN (((-1 : ℝ) • H⁻¹) i i),
      fun i => divNaN (params i) (sqrtNaN (((-1 : ℝ) • H⁻¹) i i)),
      fun i => twoSidedP sf (divNaN (params i) (sqrtNaN (((-1 : ℝ) • H⁻¹) i i))),
      asymptoticCovariance H F, fun i => sqrtNaN (asymptoticCovariance H F i i),
      fun i => divNaN (params i) (sqrtNaN (asymptoticCovariance H F i i)),
      fun i => twoSidedP sf (divNaN (params i) (sqrtNaN (asymptoticCovariance H F i i)))⟩ := by
  unfold storeInference at h
  split_ifs at h with hd
  simp only [Except.ok.injEq] at h
  exact ⟨hd, h.symm⟩

/-- Results are stored exactly when the Hessian is invertible. -/
theorem storeInference_total (sf : ℝ → ℝ) (params : Fin n → ℝ) (H F : Matrix (Fin n) (Fin n) ℝ) :
    (IsUnit H.det → ∃ r, storeInference sf params H F = .ok r) ∧
    (¬ IsUnit H.det → storeInference sf params H F = .error .linAlgError) := by
  unfold storeInference
  constructor
  · intro h; rw [if_neg (not_not.mpr h)]; exact ⟨_, rfl⟩
  · intro h; rw [if_pos h]

/-- The covariance matrix is the inverse of the negative Hessian, and the standard error of each
parameter is the square root of its variance (NaN if the variance is negative).  For a negative
definite Hessian all standard errors are positive numbers. -/
theorem standard_errors {sf : ℝ → ℝ} {params : Fin n → ℝ} {H F : Matrix (Fin n) (Fin n) ℝ}
    {r : Inference n} (h : storeInference sf params H F = .ok r) :
    r.cov * (-H) = 1 ∧
    (∀ i, 0 ≤ r.cov i i → ∃ se, r.stdErrs i = some se ∧ 0 ≤ se ∧ se ^ 2 = r.cov i i) ∧
    (∀ i, r.cov i i < 0 → r.stdErrs i = none) ∧
    ((-H).PosDef → ∀ i, ∃ se, r.stdErrs i = some se ∧ 0 < se ∧ se ^ 2 = r.cov i i) := by
  obtain ⟨hu, rfl⟩ := storeInference_ok h
  have hinv : (-1 : ℝ) • H⁻¹ * (-H) = 1 := by
    rw [Matrix.smul_mul, Matrix.mul_neg, Matrix.nonsing_inv_mul _ hu]; simp
  have hnn : ∀ i, 0 ≤ ((-1 : ℝ) • H⁻¹) i i → ∃ se, sqrtNaN (((-1 : ℝ) • H⁻¹) i i) = some se ∧
      0 ≤ se ∧ se ^ 2 = ((-1 : ℝ) • H⁻¹) i i := fun i hi =>
    ⟨Real.sqrt _, by simp only [sqrtNaN, not_lt.mpr hi, if_false], Real.sqrt_nonneg _, Real.sq_sqrt hi⟩
  refine ⟨hinv, hnn, fun i hi => ?_, fun hpd i => ?_⟩
  · change sqrtNaN _ = none
    unfold sqrtNaN
    exact if_pos hi
  · have e : (-1 : ℝ) • H⁻¹ = (-H)⁻¹ := by
      rw [Matrix.inv_eq_left_inv hinv]
    have hpos : 0 < ((-1 : ℝ) • H⁻¹) i i := by
      rw [e]; exact hpd.inv.diag_pos
    obtain ⟨se, h1, h2, h3⟩ := hnn i hpos.le
    refine ⟨se, h1, ?_, h3⟩
    rcases h2.lt_or_eq with h2 | h2
    · exact h2
    · rw [← h2] at h3; simp only [ne_eq, OfNat.ofNat_ne_zero, not_false_eq_true, zero_pow] at h3
      rw [← h3] at hpos; exact absurd hpos (lt_irrefl _)

/-- C53.  For a parameter with a positive standard error the interval of `conf_int` is symmetric
around the estimate, has half width `z * se` with `z` the normal quantile of `1 - alpha / 2`,
strictly contains the estimate, and excludes 0 exactly when the absolute t-value exceeds `z`,
which is exactly when the p-value is below `alpha`. -/
theorem conf_int_consistent {ppf : ℝ → ℝ} (hp : IsNormQuantile ppf) {params : Fin n → ℝ}
    {H F : Matrix (Fin n) (Fin n) ℝ} {r : Inference n}
    (h : storeInference normSf params H F = .ok r) (i : Fin n) (se : ℝ)
    (hse : r.stdErrs i = some se) (hpos : 0 < se) (alpha : ℝ) (h0 : 0 < alpha) (h1 : alpha < 1) :
    ∃ lo up z t p, confIntAll ppf params r.stdErrs alpha i = (some lo, some up) ∧
      normCdf z = 1 - alpha / 2 ∧ 0 < z ∧
      lo = params i - z * se ∧ up = params i + z * se ∧ lo < params i ∧ params i < up ∧
      r.tvalues i = some t ∧ t = params i / se ∧
      r.pvalues i = some p ∧ p = 2 * normSf |t| ∧ 0 < p ∧ p ≤ 1 ∧
      ((0 < lo ∨ up < 0) ↔ z < |t|) ∧ (z < |t| ↔ p < alpha) := by
  obtain ⟨hu, rfl⟩ := storeInference_ok h
  have hz := hp (1 - alpha / 2) (by linarith) (by linarith)
  have hzpos := quantile_pos hp (q := 1 - alpha / 2) (by linarith) (by linarith)
  change sqrtNaN _ = some se at hse
  refine ⟨params i - ppf (1 - alpha / 2) * se, params i + ppf (1 - alpha / 2) * se,
    ppf (1 - alpha / 2), params i / se, 2 * normSf |params i / se|, ?_, hz, hzpos, rfl, rfl,
    ?_, ?_, ?_, rfl, ?_, rfl, ?_, ?_, ?_, ?_⟩
  · simp only [confIntAll, hse, Option.map_some]
  · have := mul_pos hzpos hpos; linarith
  · have := mul_pos hzpos hpos; linarith
  · simp only [hse, divNaN, hpos.ne', if_false]
  · simp only [hse, divNaN, hpos.ne', if_false, twoSidedP, Option.map_some]
  · have := normCdf_lt_one |params i / se|
    rw [normSf_eq]; linarith
  · have := normCdf_strictMono.monotone (abs_nonneg (params i / se))
    rw [normCdf_zero] at this
    rw [normSf_eq]; linarith
  · rw [abs_div, abs_of_pos hpos, lt_div_iff₀ hpos, lt_abs]
    constructor
    · rintro (h | h)
      · left; linarith
      · right; linarith
    · rintro (h | h)
      · left; linarith
      · right; linarith
  · rw [normSf_eq]
    constructor
    · intro hlt
      have := normCdf_strictMono hlt
      rw [hz] at this; linarith
    · intro hlt
      by_contra hcon
      have := normCdf_strictMono.monotone (not_lt.mp hcon)
      rw [hz] at this; linarith

/-- C53, nesting: a smaller `alpha` gives a strictly larger interval. -/
theorem conf_int_nested {ppf : ℝ → ℝ} (hp : IsNormQuantile ppf) (params : Fin n → ℝ)
    (stdErrs : Fin n → Option ℝ) (i : Fin n) (se : ℝ) (hse : stdErrs i = some se) (hpos : 0 < se)
    (a b : ℝ) (h0 : 0 < a) (hab : a < b) (h1 : b < 1) :
    ∃ la ua lb ub, confIntAll ppf params stdErrs a i = (some la, some ua) ∧
      confIntAll ppf params stdErrs b i = (some lb, some ub) ∧ la < lb ∧ ub < ua := by
  have hz := quantile_lt hp (q := 1 - b / 2) (r := 1 - a / 2) (by linarith) (by linarith)
    (by linarith)
  refine ⟨params i - ppf (1 - a / 2) * se, params i + ppf (1 - a / 2) * se,
    params i - ppf (1 - b / 2) * se, params i + ppf (1 - b / 2) * se,
    by simp only [confIntAll, hse, Option.map_some],
    by simp only [confIntAll, hse, Option.map_some], ?_, ?_⟩
  · have := mul_lt_mul_of_pos_right hz hpos; linarith
  · have := mul_lt_mul_of_pos_right hz hpos; linarith

private lemma locRows_ok {α : Type} (names : Fin n → String) (hn : Function.Injective names)
    (rows : Fin n → α) (is : List (Fin n)) :
    locRows names rows (is.map names) = .ok (is.map rows) := by
  induction is with
  | nil => rfl
  | cons i is ih =>
    have h1 : ((List.finRange n).any fun j => decide (names j = names i)) = true := by
      rw [List.any_eq_true]; exact ⟨i, List.mem_finRange i, by simp⟩
    have h2 : (List.finRange n).filter (fun j => decide (names j = names i)) = [i] := by
      have : (fun j => decide (names j = names i)) = fun j => decide (j = i) := by
        funext j; simp [hn.eq_iff]
      rw [this]
      have := (List.nodup_finRange n).filter (fun j => decide (j = i))
      have hmem : ∀ j, j ∈ (List.finRange n).filter (fun j => decide (j = i)) ↔ j ∈ [i] := by
        intro j; simp
      exact List.perm_singleton.mp ((List.perm_ext_iff_of_nodup this (by simp)).mpr hmem)
    simp only [List.map_cons, locRows, h1, if_true, ih, bind, Except.bind, h2, pure, Except.pure]
    rfl

/-- Asking for particular coefficients returns the rows of exactly those coefficients, in the
requested order; without a request all rows come in parameter order; an unknown name raises
`KeyError`. -/
theorem conf_int_selection (ppf : ℝ → ℝ) (names : Fin n → String) (hn : Function.Injective names)
    (params : Fin n → ℝ) (stdErrs : Fin n → Option ℝ) (alpha : ℝ) :
    confInt ppf names params stdErrs alpha none
      = .ok (List.ofFn (confIntAll ppf params stdErrs alpha)) ∧
    (∀ is : List (Fin n), confInt ppf names params stdErrs alpha (some (is.map names))
      = .ok (is.map (confIntAll ppf params stdErrs alpha))) ∧
    (∀ is : List (Fin n), ∀ c cs, (∀ i, names i ≠ c) →
      confInt ppf names params stdErrs alpha (some (is.map names ++ c :: cs))
        = .error .keyError) := by
  refine ⟨rfl, fun is => locRows_ok names hn _ is, fun is c cs hc => ?_⟩
  change locRows names _ _ = _
  induction is with
  | nil =>
    have : ((List.finRange n).any fun j => decide (names j = c)) = false := by
      rw [List.any_eq_false]; intro j _; simp [hc j]
    simp [locRows, this]
  | cons i is ih =>
    have h1 : ((List.finRange n).any fun j => decide (names j = names i)) = true := by
      rw [List.any_eq_true]; exact ⟨i, List.mem_finRange i, by simp⟩
    simp only [List.map_cons, List.cons_append, locRows, h1, if_true, ih, bind, Except.bind]

/-- Non-vacuity: an estimate 3 with Hessian -4 has standard error 1/2 and t-value 6. -/
example : ∃ r, storeInference normSf (fun _ : Fin 1 => 3) (Matrix.of fun _ _ => -4)
      (Matrix.of fun _ _ => 4) = .ok r ∧ r.stdErrs 0 = some (1 / 2) ∧ r.tvalues 0 = some 6 := by
  have hd : (Matrix.of fun (_ _ : Fin 1) => (-4 : ℝ)).det = -4 := by simp
  have hu : IsUnit (Matrix.of fun (_ _ : Fin 1) => (-4 : ℝ)).det := by
    rw [hd]; exact isUnit_iff_ne_zero.mpr (by norm_num)
  obtain ⟨r, hr⟩ := (storeInference_total normSf (fun _ : Fin 1 => 3)
    (Matrix.of fun _ _ => -4) (Matrix.of fun _ _ => 4)).1 hu
  obtain ⟨_, rfl⟩ := storeInference_ok hr
  have hinv : ((-1 : ℝ) • (Matrix.of fun (_ _ : Fin 1) => (-4 : ℝ))⁻¹) 0 0 = 1 / 4 := by
    have : (Matrix.of fun (_ _ : Fin 1) => (-4 : ℝ))⁻¹ = Matrix.of fun (_ _ : Fin 1) => (-1 / 4 : ℝ) := by
      apply Matrix.inv_eq_left_inv
      ext i j
      fin_cases i; fin_cases j
      simp [Matrix.mul_apply]
    rw [this]; norm_num
  have hs : sqrtNaN (((-1 : ℝ) • (Matrix.of fun (_ _ : Fin 1) => (-4 : ℝ))⁻¹) 0 0) = some (1 / 2) := by
    rw [hinv]
    have : Real.sqrt (1 / 4) = 1 / 2 := by
      rw [show (1 / 4 : ℝ) = (1 / 2) ^ 2 by norm_num]; exact Real.sqrt_sq (by norm_num)
    rw [sqrtNaN, if_neg (by norm_num), this]
  refine ⟨_, hr, hs, ?_⟩
  change divNaN 3 (sqrtNaN _) = _
  rw [hs]
  norm_num [divNaN]

/-! ## C51, reporting -/

private lemma pyGet_spec {α : Type} (f : Fin n → α) (pos : ℤ) :
    (∀ i : Fin n, PosIs n pos i → pyGet (List.ofFn f) pos = .ok (f i)) ∧
    ((∀ i : Fin n, ¬ PosIs n pos i) → pyGet (List.ofFn f) pos = .error .indexError) := by
  unfold pyGet PosIs
  simp only [List.length_ofFn]
  constructor
  · intro i hi
    have : (if pos < 0 then pos + (n : ℤ) else pos) = i := by
      rcases hi with hi | hi
      · rw [if_neg (by omega)]; exact hi
      · rw [if_pos (by omega)]; omega
    simp only [this]
    rw [dif_pos ⟨by omega, by omega⟩]
    simp
  · intro hno
    rw [dif_neg]
    rintro ⟨ha, hb⟩
    refine hno ⟨(if pos < 0 then pos + (n : ℤ) else pos).toNat, by omega⟩ ?_
    simp only
    split_ifs at * with hneg
    · right; omega
    · left; omega

theorem adjustSeries_spec (names : Fin n → String) (x : Fin n → Option ℝ) (cs : List ℤ)
    (hin : ∀ pos ∈ cs, ∃ i, PosIs n pos i) :
    ∃ y, adjustSeries names x cs = .ok y ∧
      ∀ i, ((∃ pos ∈ cs, ∃ j, PosIs n pos j ∧ names j = names i) → y i = none) ∧
        ((∀ pos ∈ cs, ∀ j, PosIs n pos j → names j ≠ names i) → y i = x i) := by
  induction cs generalizing x with
  | nil => exact ⟨x, rfl, fun i => ⟨by simp, fun _ => rfl⟩⟩
  | cons pos cs ih =>
    obtain ⟨j, hj⟩ := hin pos (by simp)
    obtain ⟨y, hy, hspec⟩ := ih (setNaN names (names j) x) (fun p hp => hin p (by simp [hp]))
    refine ⟨y, by simp only [adjustSeries, (pyGet_spec names pos).1 j hj, bind, Except.bind, hy], ?_⟩
    intro i
    have hunique : ∀ k, PosIs n pos k → k = j := by
      intro k hk
      apply Fin.ext
      unfold PosIs at hk hj
      omega
    constructor
    · rintro ⟨p, hp, k, hk, hnk⟩
      by_cases hc : ∃ pos ∈ cs, ∃ j, PosIs n pos j ∧ names j = names i
      · exact (hspec i).1 hc
      · rw [(hspec i).2 (fun p hp k hk hn => hc ⟨p, hp, k, hk, hn⟩)]
        rcases List.mem_cons.mp hp with rfl | hp
        · rw [hunique k hk] at hnk
          simp [setNaN, hnk]
        · exact absurd ⟨p, hp, k, hk, hnk⟩ hc
    · intro hall
      rw [(hspec i).2 (fun p hp k hk => hall p (by simp [hp]) k hk)]
      have := hall pos (by simp) j hj
      simp [setNaN, this.symm]

/-- The positions named by a constraint list. -/
def Constrained (n : ℕ) (cs : List ℤ) (i : Fin n) : Prop := ∃ pos ∈ cs, PosIs n pos i

/-- C51, reporting half: with distinct parameter names, the standard errors, t-values and p-values
(robust or not) of the constrained parameters are NaN, and those of all other parameters are
untouched. -/
theorem constrained_results_nan (names : Fin n → String) (hn : Function.Injective names)
    (cs : List ℤ) (hin : ∀ pos ∈ cs, ∃ i : Fin n, PosIs n pos i) (r : Inference n) :
    ∃ r', adjustInference names (some cs) r = .ok r' ∧ r'.cov = r.cov ∧
      r'.robustCov = r.robustCov ∧
      (∀ i, Constrained n cs i → r'.stdErrs i = none ∧ r'.tvalues i = none ∧ r'.pvalues i = none ∧
        r'.robustStdErrs i = none ∧ r'.robustTStats i = none ∧ r'.robustPVals i = none) ∧
      (∀ i, ¬ Constrained n cs i → r'.stdErrs i = r.stdErrs i ∧ r'.tvalues i = r.tvalues i ∧
        r'.pvalues i = r.pvalues i ∧ r'.robustStdErrs i = r.robustStdErrs i ∧
        r'.robustTStats i = r.robustTStats i ∧ r'.robustPVals i = r.robustPVals i) := by
  have key : ∀ x, ∃ y, adjustSeries names x cs = .ok y ∧
      (∀ i, Constrained n cs i → y i = none) ∧ (∀ i, ¬ Constrained n cs i → y i = x i) := by
    intro x
    obtain ⟨y, hy, hs⟩ := adjustSeries_spec names x cs hin
    refine ⟨y, hy, ?_, ?_⟩
    · rintro i ⟨pos, hp, hi⟩
      exact (hs i).1 ⟨pos, hp, i, hi, rfl⟩
    · intro i hi
      refine (hs i).2 (fun pos hp j hj hne => hi ⟨pos, hp, ?_⟩)
      rw [← hn hne]; exact hj
  obtain ⟨y1, e1, a1, b1⟩ := key r.stdErrs
  obtain ⟨y2, e2, a2, b2⟩ := key r.tvalues
  obtain ⟨y3, e3, a3, b3⟩ := key r.pvalues
  obtain ⟨y4, e4, a4, b4⟩ := key r.robustStdErrs
  obtain ⟨y5, e5, a5, b5⟩ := key r.robustTStats
  obtain ⟨y6, e6, a6, b6⟩ := key r.robustPVals
  refine ⟨{ r with stdErrs := y1, tvalues := y2, pvalues := y3, robustStdErrs := y4,
                   robustTStats := y5, robustPVals := y6 }, ?_, rfl, rfl, ?_, ?_⟩
  · simp only [adjustInference, e1, e2, e3, e4, e5, e6, bind, Except.bind, pure, Except.pure]
  · intro i hi
    exact ⟨a1 i hi, a2 i hi, a3 i hi, a4 i hi, a5 i hi, a6 i hi⟩
  · intro i hi
    exact ⟨b1 i hi, b2 i hi, b3 i hi, b4 i hi, b5 i hi, b6 i hi⟩

/-- Without constraints nothing changes. -/
theorem unconstrained_results (names : Fin n → String) (r : Inference n) :
    adjustInference names none r = .ok r := rfl

/-- With two parameters of the same name, constraining one also wipes the results of the other. -/
theorem duplicate_name_wiped :
    ∃ r', adjustInference (fun _ : Fin 2 => "ASC") (some [0])
      ⟨0, fun _ => some 1, fun _ => some 1, fun _ => some 1, 0, fun _ => some 1, fun _ => some 1,
        fun _ => some 1⟩ = .ok r' ∧ ¬ Constrained 2 [0] 1 ∧ r'.stdErrs 1 = none := by
  refine ⟨⟨0, fun _ => none, fun _ => none, fun _ => none, 0, fun _ => none, fun _ => none,
    fun _ => none⟩, ?_, ?_, rfl⟩
  · have : adjustSeries (fun _ : Fin 2 => "ASC") (fun _ => some (1 : ℝ)) [0] = .ok fun _ => none := by
      simp only [adjustSeries, pyGet]
      simp [bind, Except.bind]
      funext i; simp [setNaN]
    simp [adjustInference, this, bind, Except.bind, pure, Except.pure]
  · rintro ⟨pos, hp, h⟩
    simp only [List.mem_singleton] at hp
    subst hp
    rcases h with h | h <;> simp at h

/-- Non-vacuity: position -1 of three parameters is the last one. -/
example : (∀ pos ∈ [-1, 0], ∃ i : Fin 3, PosIs 3 pos i) ∧ Constrained 3 [-1, 0] 2 ∧
    ¬ Constrained 3 [-1, 0] 1 := by
  refine ⟨?_, ⟨-1, by simp, Or.inr (by simp)⟩, ?_⟩
  · intro pos hp
    simp only [List.mem_cons, List.not_mem_nil, or_false] at hp
    rcases hp with rfl | rfl
    · exact ⟨2, Or.inr (by simp)⟩
    · exact ⟨0, Or.inl (by simp)⟩
  · rintro ⟨pos, hp, h⟩
    simp only [List.mem_cons, List.not_mem_nil, or_false] at hp
    rcases hp with rfl | rfl <;> rcases h with h | h <;> simp at h

end Pylogit
