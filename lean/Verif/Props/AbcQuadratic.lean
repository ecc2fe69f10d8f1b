import Verif.Props.BootstrapAbc

/-!
# C80: the ABC interval of a quadratic statistic

The weighted mean of C71 has no second-order terms.  Here the statistic is any quadratic function of the
observation weights, so that the second-order influences, the bias, the quadratic coefficient and the
bias correction all enter the result.
-/

set_option linter.unusedSectionVars false

open Finset Matrix

namespace Pylogit

open Spec

variable {R O P : Type} [Fintype O] [DecidableEq O]

private lemma fitWide_at {m : AbcModel R O P} {f : R → O} (hM : Indicates m.rowsToObs f)
    (wide : O → ℝ) : m.fitWide (some wide) = m.fit fun r => some (wide (f r) * m.origWeights r) := by
  unfold AbcModel.fitWide
  simp only [long_form_weights hM]

private lemma quadForm_smul (H : O → O → ℝ) (k : ℝ) (d : O → ℝ) :
    quadForm H (fun o => k * d o) = k ^ 2 * quadForm H d := by
  unfold quadForm
  rw [Finset.mul_sum]
  refine Finset.sum_congr rfl fun a _ => ?_
  rw [Finset.mul_sum]
  exact Finset.sum_congr rfl fun b _ => by ring

/-- The direction from equal weights towards observation `o`. -/
private noncomputable def dirTo (o x : O) : ℝ := (if x = o then 1 else 0) - 1 / Fintype.card O

private lemma sum_dirTo (l : O → P → ℝ) (o : O) (p : P) :
    ∑ x, dirTo o x * l x p = l o p - obsMean l p := by
  unfold dirTo
  simp only [sub_mul, ite_mul, one_mul, zero_mul]
  rw [Finset.sum_sub_distrib, Finset.sum_ite_eq' univ o, if_pos (mem_univ _), ← Finset.mul_sum,
    obsMean]
  ring

/-- **C80**.  Suppose the estimate is a quadratic function of the observation weights, expanded about
equal weights.  Write `n` for the number of observations, `U o` for the derivative of the statistic in
the direction of observation `o` (the linear coefficient minus their mean), `V o` for the second
derivative in that direction, `SE` for the root of the sum of squared `U` over `n`, `a` for the
acceleration, `b = ∑ V / (2 n²)` for the bias, `C` for the second derivative along the least favourable
direction `U / (n² SE)`, and `z₀` for the bias correction,
`Φ z₀ = 2 Φ(a) Φ(-(b / SE - C / (2 SE)))`.  Then the endpoints are the statistic at `λ` steps along the
least favourable direction, `μ + SE λ + C λ² / 2`, where `λ = w / (1 - a w)²` and `w = z₀ + z` for the
normal quantiles `z = zl, zu` of the level.  The result does not depend on the step size `ε`, as long
as no difference is lost to the code's tolerances. -/
theorem abc_interval_of_quadratic [Nonempty O] {ppf : ℝ → ℝ} (hp : IsNormQuantile ppf)
    {m : AbcModel R O P} {f : R → O} (hM : Indicates m.rowsToObs f)
    (μ : P → ℝ) (l : O → P → ℝ) (H : P → O → O → ℝ)
    (hfit : ∀ (w : O → ℝ) (p : P),
      m.fit (fun r => some (w (f r) * m.origWeights r)) p = quadStatistic μ l H w p)
    {ε c : ℝ} (hε : ε ≠ 0) (h0 : 0 < c) (h1 : c < 100)
    (U V : O → P → ℝ) (hU : ∀ o p, U o p = l o p - obsMean l p)
    (hV : ∀ o p, V o p = quadForm (H p) fun x => (if x = o then 1 else 0) - 1 / Fintype.card O)
    (SE a b C γ z₀ : P → ℝ)
    (hSE : ∀ p, SE p = Real.sqrt (∑ o, U o p ^ 2) / Fintype.card O)
    (ha : ∀ p, a p = (∑ o, U o p ^ 3) / (6 * (∑ o, U o p ^ 2) ^ (1.5 : ℝ)))
    (hb : ∀ p, b p = (∑ o, V o p) / (2 * (Fintype.card O : ℝ) ^ 2))
    (hC : ∀ p, C p = quadForm (H p) fun o => U o p / ((Fintype.card O : ℝ) ^ 2 * SE p))
    (hγ : ∀ p, γ p = b p / SE p - C p / (2 * SE p))
    (hz₀ : ∀ p, normCdf (z₀ p) = 2 * normCdf (a p) * normCdf (-γ p))
    (hvar : ∀ p, ∑ o, U o p ^ 2 ≠ 0)
    (htolU : ∀ o p, U o p = 0 ∨ 1e-12 < |2 * ε * U o p|)
    (htolV : ∀ o p, V o p = 0 ∨ 1e-12 < |ε ^ 2 * V o p|)
    (htolC : (∀ p, C p = 0) ∨ ∀ p, 1e-10 < |ε ^ 2 * C p|)
    (zl zu : ℝ) (hzl : normCdf zl = (100 - c) / 200) (hzu : normCdf zu = 1 - (100 - c) / 200)
    (hl : ∀ p, a p * (z₀ p + zl) ≠ 1) (hu : ∀ p, a p * (z₀ p + zu) ≠ 1)
    (lamL lamU : P → ℝ)
    (hlamL : ∀ p, lamL p = (z₀ p + zl) / (1 - a p * (z₀ p + zl)) ^ 2)
    (hlamU : ∀ p, lamU p = (z₀ p + zu) / (1 - a p * (z₀ p + zu)) ^ 2) :
    calcAbcInterval ppf normCdf m μ (.num c) ε = .ok fun p =>
      (μ p + SE p * lamL p + C p * lamL p ^ 2 / 2,
       μ p + SE p * lamU p + C p * lamU p ^ 2 / 2) := by
  classical
  have hn : (Fintype.card O : ℝ) ≠ 0 := by simp
  have hn0 : (0 : ℝ) < Fintype.card O := by
    have := Fintype.card_pos (α := O); exact_mod_cast this
  have hpos : ∀ p, 0 < ∑ o, U o p ^ 2 := fun p => lt_of_le_of_ne
    (Finset.sum_nonneg fun o _ => by positivity) (Ne.symm (hvar p))
  have hSEpos : ∀ p, 0 < SE p := fun p => by
    rw [hSE]; exact div_pos (Real.sqrt_pos.2 (hpos p)) hn0
  have hsq : ∀ p, ∑ o, U o p ^ 2 = (SE p * Fintype.card O) ^ 2 := fun p => by
    rw [hSE, div_mul_cancel₀ _ hn, Real.sq_sqrt (hpos p).le]
  -- the statistic at a step along a direction
  have hstep : ∀ (s : ℝ) (d : O → ℝ) (p : P),
      m.fitWide (some fun o => 1 / (Fintype.card O : ℝ) + s * d o) p =
        μ p + s * ∑ o, d o * l o p + s ^ 2 * quadForm (H p) d / 2 := by
    intro s d p
    rw [fitWide_at hM, hfit fun o => 1 / (Fintype.card O : ℝ) + s * d o]
    unfold quadStatistic
    simp only [add_sub_cancel_left]
    rw [quadForm_smul]
    simp only [mul_assoc]
    rw [← Finset.mul_sum]
    ring
  have hplus : ∀ o p, abcTermPlus m ε o p = μ p + ε * U o p + ε ^ 2 * V o p / 2 := by
    intro o p
    have : abcTermPlus m ε o = m.fitWide (some fun x => 1 / (Fintype.card O : ℝ) + ε * dirTo o x) := by
      unfold abcTermPlus
      simp only []
      congr 2
      funext x
      unfold dirTo
      by_cases h : x = o
      · subst h; simp; ring
      · simp [h]; ring
    rw [this, hstep, sum_dirTo, hU, hV]
    rfl
  have hminus : ∀ o p, abcTermMinus m ε o p = μ p - ε * U o p + ε ^ 2 * V o p / 2 := by
    intro o p
    have : abcTermMinus m ε o =
        m.fitWide (some fun x => 1 / (Fintype.card O : ℝ) + (-ε) * dirTo o x) := by
      unfold abcTermMinus
      simp only []
      congr 2
      funext x
      unfold dirTo
      by_cases h : x = o
      · subst h; simp; ring
      · simp [h]; ring
    rw [this, hstep, sum_dirTo, hU, hV]
    unfold dirTo
    ring
  have hinfl : empiricalInfluence (abcTermPlus m ε) (abcTermMinus m ε) ε = U := by
    funext o p
    unfold empiricalInfluence
    rw [hplus, hminus, show μ p + ε * U o p + ε ^ 2 * V o p / 2 -
      (μ p - ε * U o p + ε ^ 2 * V o p / 2) = 2 * ε * U o p by ring]
    split_ifs with h
    · rcases htolU o p with h' | h'
      · exact h'.symm
      · linarith
    · field_simp
  have hsecond : secondOrderInfluence μ (abcTermPlus m ε) (abcTermMinus m ε) ε = V := by
    funext o p
    unfold secondOrderInfluence
    rw [hplus, hminus, show μ p + ε * U o p + ε ^ 2 * V o p / 2 +
      (μ p - ε * U o p + ε ^ 2 * V o p / 2) - 2 * μ p = ε ^ 2 * V o p by ring,
      show μ p + ε * U o p + ε ^ 2 * V o p / 2 - 2 * μ p +
      (μ p - ε * U o p + ε ^ 2 * V o p / 2) = ε ^ 2 * V o p by ring]
    split_ifs with h
    · rcases htolV o p with h' | h'
      · exact h'.symm
      · linarith
    · field_simp
  have hse : stdErrorAbc U = SE := by
    funext p
    rw [hSE]
    unfold stdErrorAbc
    rw [Real.sqrt_eq_rpow]; norm_num
  have hacc : accelerationAbc U = fun p => some (a p) := by
    funext p
    have hd : 6 * (∑ o, U o p ^ 2) ^ (1.5 : ℝ) ≠ 0 := by
      have := Real.rpow_pos_of_pos (hpos p) (1.5 : ℝ)
      positivity
    unfold accelerationAbc
    simp only []
    rw [if_neg hd, ha]
  have hbias : biasAbc V = b := by
    funext p; rw [hb]; rfl
  -- steps along the least favourable direction
  have hdirU : ∀ p, ∑ o, U o p / ((Fintype.card O : ℝ) ^ 2 * SE p) * l o p = SE p := by
    intro p
    have hs := (hSEpos p).ne'
    have hsum : ∑ o, U o p = 0 := by
      simp only [hU]
      rw [Finset.sum_sub_distrib, Finset.sum_const, card_univ, nsmul_eq_mul, obsMean]
      field_simp
      ring
    have hUl : ∑ o, U o p * l o p = ∑ o, U o p ^ 2 := by
      have : ∀ o, U o p * l o p = U o p ^ 2 + obsMean l p * U o p := fun o => by
        rw [hU o p]; ring
      simp only [this]
      rw [Finset.sum_add_distrib, ← Finset.mul_sum, hsum, mul_zero, add_zero]
    have : ∀ o, U o p / ((Fintype.card O : ℝ) ^ 2 * SE p) * l o p =
        1 / ((Fintype.card O : ℝ) ^ 2 * SE p) * (U o p * l o p) := fun o => by ring
    simp only [this]
    rw [← Finset.mul_sum, hUl, hsq]
    field_simp
  have hlf : ∀ (s : ℝ) (p : P), m.fitWide (some fun o => 1 / (Fintype.card O : ℝ) +
      s * (U o p / ((Fintype.card O : ℝ) ^ 2 * SE p))) p = μ p + s * SE p + s ^ 2 * C p / 2 := by
    intro s p
    rw [hstep, hdirU, hC]
  have hquadW : ∀ (e : ℝ) (p : P), m.fitWide (quadraticWeights U SE e p) p =
      μ p + e * SE p + e ^ 2 * C p / 2 := by
    intro e p
    have hne : (Fintype.card O : ℝ) ^ 2 * SE p ≠ 0 := by
      have := hSEpos p
      positivity
    unfold quadraticWeights
    simp only []
    rw [if_neg hne, hlf]
  have hquad : efronQuadraticCoef m μ U SE ε = .ok fun p => some (C p / (2 * SE p)) := by
    unfold efronQuadraticCoef
    have e1 : ∀ p, μ p + ε * SE p + ε ^ 2 * C p / 2 +
        (μ p + -ε * SE p + (-ε) ^ 2 * C p / 2) - 2 * μ p = ε ^ 2 * C p := fun p => by ring
    have e2 : ∀ p, μ p + ε * SE p + ε ^ 2 * C p / 2 - 2 * μ p +
        (μ p + -ε * SE p + (-ε) ^ 2 * C p / 2) = ε ^ 2 * C p := fun p => by ring
    simp only [hquadW, e1, e2]
    rcases htolC with h | h
    · rw [if_pos fun p => by rw [h]; norm_num]
      congr 1
      funext p
      rw [h]; simp
    · by_cases hP : Nonempty P
      · rw [if_neg, if_pos fun p => not_le.2 (h p)]
        · congr 1
          funext p
          have hs := (hSEpos p).ne'
          rw [if_neg (by positivity)]
          congr 1
          field_simp
        · intro h'
          obtain ⟨p⟩ := hP
          exact h' p (not_le.2 (h p))
      · rw [if_pos fun p => absurd ⟨p⟩ hP]
        congr 1
        funext p
        exact absurd ⟨p⟩ hP
  have hbc : ∀ p, biasCorrectionAbc ppf normCdf (some (a p))
      (totalCurvature (b p) (SE p) (some (C p / (2 * SE p)))) = some (z₀ p) := by
    intro p
    have hs := (hSEpos p).ne'
    simp only [totalCurvature, biasCorrectionAbc, Option.bind_some, if_neg hs]
    rw [← hγ, neg_one_mul, ← hz₀, if_pos ⟨normCdf_pos _, normCdf_lt_one _⟩, quantile_cdf hp]
  have hend : ∀ (pct z : ℝ) (p : P) (lam : ℝ), normCdf z = pct * 0.01 → a p * (z₀ p + z) ≠ 1 →
      lam = (z₀ p + z) / (1 - a p * (z₀ p + z)) ^ 2 →
      m.fitWide (endpointWeights ppf pct (some (z₀ p)) (some (a p)) (SE p)
        fun o => U o p) p = μ p + SE p * lam + C p * lam ^ 2 / 2 := by
    intro pct z p lam hz hne hlam
    have hs := hSEpos p
    have hz' : ppf (pct * 0.01) = z := by rw [← hz, quantile_cdf hp]
    have h1 : (1 - a p * (z₀ p + z)) ≠ 0 := fun h => hne (by linarith)
    simp only [endpointWeights, Option.bind_some, hz']
    rw [if_neg (by
      rintro (h | h)
      · exact h1 (pow_eq_zero_iff (two_ne_zero) |>.1 h)
      · exact absurd h (by positivity)), ← hlam]
    have := hlf lam p
    rw [show μ p + SE p * lam + C p * lam ^ 2 / 2 = μ p + lam * SE p + lam ^ 2 * C p / 2 by ring,
      ← this]
    congr 2
    funext o
    ring
  have hc : checkConfPercentage (.num c) = .ok c := by simp [checkConfPercentage, h0, h1]
  simp only [calcAbcInterval, hc, bind, Except.bind, hinfl, hsecond, hse, hacc, hbias, hquad, hbc,
    efronEndpoint, alphaFromConf]
  congr 1
  funext p
  rw [hend _ zl p _ (by rw [hzl]; ring) (hl p) (hlamL p),
    hend _ zu p _ (by rw [hzu]; ring) (hu p) (hlamU p)]

/-- A case meeting the hypotheses, with non-zero second-order terms: two observations of one row each,
linear coefficients 1 and -1 and a second derivative of 1 at the first observation. -/
example : ∃ (m : AbcModel (Fin 2) (Fin 2) Unit) (l : Fin 2 → Unit → ℝ)
    (H : Unit → Fin 2 → Fin 2 → ℝ) (U V : Fin 2 → Unit → ℝ) (SE a b C γ z₀ : Unit → ℝ),
    Indicates m.rowsToObs id ∧
    (∀ (w : Fin 2 → ℝ) (p : Unit),
      m.fit (fun r => some (w (id r) * m.origWeights r)) p = quadStatistic (fun _ => 5) l H w p) ∧
    (∀ o p, U o p = l o p - obsMean l p) ∧
    (∀ o p, V o p = quadForm (H p) fun x => (if x = o then 1 else 0) - 1 / Fintype.card (Fin 2)) ∧
    (∀ p, SE p = Real.sqrt (∑ o, U o p ^ 2) / Fintype.card (Fin 2)) ∧
    (∀ p, a p = (∑ o, U o p ^ 3) / (6 * (∑ o, U o p ^ 2) ^ (1.5 : ℝ))) ∧
    (∀ p, b p = (∑ o, V o p) / (2 * (Fintype.card (Fin 2) : ℝ) ^ 2)) ∧
    (∀ p, C p = quadForm (H p) fun o => U o p / ((Fintype.card (Fin 2) : ℝ) ^ 2 * SE p)) ∧
    (∀ p, γ p = b p / SE p - C p / (2 * SE p)) ∧
    (∀ p, normCdf (z₀ p) = 2 * normCdf (a p) * normCdf (-γ p)) ∧
    (∀ p, ∑ o, U o p ^ 2 ≠ 0) ∧ (∀ o p, 1e-12 < |2 * (1e-3 : ℝ) * U o p|) ∧
    (∀ o p, 1e-12 < |(1e-3 : ℝ) ^ 2 * V o p|) ∧ (∀ p, 1e-10 < |(1e-3 : ℝ) ^ 2 * C p|) ∧
    ∀ p z, a p * (z₀ p + z) ≠ 1 := by
  have hs : Real.sqrt 2 ≠ 0 := by simp
  have hs2 : Real.sqrt 2 ^ 2 = 2 := Real.sq_sqrt (by norm_num)
  refine ⟨⟨1, fun w p => quadStatistic (fun _ => 5) (fun o _ => (![1, -1] : Fin 2 → ℝ) o)
      (fun _ x y => if x = 0 ∧ y = 0 then 1 else 0) (fun r => (w r).getD 0) p, fun _ => 1⟩,
    fun o _ => (![1, -1] : Fin 2 → ℝ) o, fun _ x y => if x = 0 ∧ y = 0 then 1 else 0,
    fun o _ => (![1, -1] : Fin 2 → ℝ) o, fun _ _ => 1 / 4, fun _ => Real.sqrt 2 / 2, fun _ => 0,
    fun _ => 1 / 16, fun _ => 1 / 8, fun _ => 0, fun _ => 0,
    ?_, ?_, ?_, ?_, ?_, ?_, ?_, ?_, ?_, ?_, ?_, ?_, ?_, ?_, ?_⟩
  · intro r o
    simp [Matrix.one_apply]
  · intro w p
    simp
  · intro o p
    fin_cases o <;> simp [obsMean]
  · intro o p
    fin_cases o <;> simp [quadForm] <;> norm_num
  · intro p
    simp
    norm_num
  · intro p
    simp
    rw [show (1 : ℝ) + (-1) ^ 3 = 0 by norm_num, zero_div]
  · intro p
    simp
    norm_num
  · intro p
    simp [quadForm]
    field_simp
    rw [hs2]; norm_num
  · intro p
    field_simp
    norm_num
  · intro p
    simp only [neg_zero, normCdf_zero]
    norm_num
  · intro p
    simp
  · intro o p
    fin_cases o <;> norm_num [abs_of_pos, abs_of_neg]
  · intro o p
    norm_num [abs_of_pos]
  · intro p
    norm_num [abs_of_pos]
  · intro p z
    simp

end Pylogit
