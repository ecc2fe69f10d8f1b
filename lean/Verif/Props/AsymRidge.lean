import Verif.Props.LikelihoodRatioCases
import Mathlib.Analysis.SpecialFunctions.Trigonometric.Series
import Mathlib.Analysis.SpecialFunctions.Trigonometric.DerivHyp

/-!
# C125: two alternatives, a ridge penalty, and the asymmetric logit model
-/

open Finset Matrix

namespace Pylogit

open Spec

noncomputable section

namespace AsymRidge

private lemma soft (d : ℝ) : Real.log (1 + Real.exp d) = Real.log 2 + d / 2 + Real.log (Real.cosh (d / 2)) := by
  have h : 1 + Real.exp d = 2 * (Real.exp (d / 2) * Real.cosh (d / 2)) := by
    rw [Real.cosh_eq]
    have e1 : Real.exp (d / 2) * Real.exp (d / 2) = Real.exp d := by rw [← Real.exp_add]; congr 1; ring
    have e2 : Real.exp (d / 2) * Real.exp (-(d / 2)) = 1 := by rw [← Real.exp_add]; simp
    linear_combination -e1 - e2
  rw [h, Real.log_mul (by norm_num) (by have := Real.cosh_pos (d / 2); positivity),
    Real.log_mul (Real.exp_pos _).ne' (Real.cosh_pos _).ne', Real.log_exp]
  ring

private lemma log_cosh (y : ℝ) : 0 ≤ Real.log (Real.cosh y) ∧ Real.log (Real.cosh y) ≤ y ^ 2 / 2 :=
  ⟨Real.log_nonneg (Real.one_le_cosh y),
    (Real.log_le_iff_le_exp (Real.cosh_pos y)).2 (Real.cosh_le_exp_half_sq y)⟩

private lemma jensen (p q : ℝ) :
    2 * Real.log (1 + Real.exp ((p + q) / 2)) ≤ Real.log (1 + Real.exp p) + Real.log (1 + Real.exp q) := by
  rw [← Real.log_mul (by positivity) (by positivity), show (2 : ℝ) = ((2 : ℕ) : ℝ) by norm_num, ← Real.log_pow]
  refine Real.log_le_log (by positivity) ?_
  have e : Real.exp ((p + q) / 2) = Real.exp (p / 2) * Real.exp (q / 2) := by rw [← Real.exp_add]; congr 1; ring
  have e1 : Real.exp p = Real.exp (p / 2) ^ 2 := by rw [sq, ← Real.exp_add]; congr 1; ring
  have e2 : Real.exp q = Real.exp (q / 2) ^ 2 := by rw [sq, ← Real.exp_add]; congr 1; ring
  push_cast
  rw [e, e1, e2]
  nlinarith [sq_nonneg (Real.exp (p / 2) - Real.exp (q / 2))]

/-- The fit of the asymmetric model, compared with the multinomial logit at a coefficient of our choice. -/
theorem core {β s p q : ℝ} (hsum : p + q = -(β * (2 * Real.log (1 + Real.exp s) - s)))
    (hb : β ^ 2 + s ^ 2 ≤ 2 * Real.log 2) : ∃ b, |b| ≤ 700 ∧
    -Real.log (1 + Real.exp p) - Real.log (1 + Real.exp q) - (β ^ 2 + s ^ 2) <
      -2 * Real.log (1 + Real.exp (-b)) - b ^ 2 := by
  have hl2 := Real.log_two_lt_d9
  have hl2' := Real.log_two_gt_d9
  have hj := jensen p q
  obtain ⟨c1, c2⟩ := log_cosh (s / 2)
  have hM : 2 * Real.log (1 + Real.exp s) - s = 2 * Real.log 2 + 2 * Real.log (Real.cosh (s / 2)) := by rw [soft]; ring
  rw [hM] at hsum
  have hs2 : s ^ 2 ≤ 2 * Real.log 2 := by nlinarith [sq_nonneg β]
  have hβ2 : β ^ 2 ≤ 2 * Real.log 2 := by nlinarith [sq_nonneg s]
  by_cases hβ : 0 < β
  · set k := Real.log 2 + Real.log (Real.cosh (s / 2)) with hk
    have hk1 : k < 1 := by nlinarith
    have hk0 : 0 < k := by linarith
    have hβ' : β ≤ 2 := by nlinarith
    refine ⟨β * k, ?_, ?_⟩
    · rw [abs_of_pos (mul_pos hβ hk0)]; nlinarith
    · have e : (p + q) / 2 = -(β * k) := by rw [hsum, hk]; ring
      rw [e] at hj
      have : (β * k) ^ 2 < β ^ 2 := by
        rw [mul_pow]
        have : k ^ 2 < 1 := by nlinarith
        nlinarith [mul_pos hβ hβ]
      nlinarith [sq_nonneg s]
  · refine ⟨1 / 4, by norm_num [abs_le], ?_⟩
    have h0 : 0 ≤ (p + q) / 2 := by
      rw [hsum]
      have : 0 ≤ -β * (2 * Real.log 2 + 2 * Real.log (Real.cosh (s / 2))) :=
        mul_nonneg (by linarith) (by linarith)
      linarith
    have h1 : Real.log 2 ≤ Real.log (1 + Real.exp ((p + q) / 2)) := by
      refine Real.log_le_log (by norm_num) ?_
      have := Real.add_one_le_exp ((p + q) / 2)
      linarith
    have h2 := soft (-(1 / 4))
    obtain ⟨-, c3⟩ := log_cosh (-(1 / 4) / 2)
    have h3 : Real.log (1 + Real.exp (-(1 / 4))) ≤ Real.log 2 - 1 / 8 + 1 / 128 := by rw [h2]; nlinarith
    nlinarith [sq_nonneg s, sq_nonneg β]

/-- Two observations of two alternatives: each chose the alternative with the larger value of the variable. -/
def exPair : Frame ℝ := exFour ![1, 0, 0, 1] ![1, 0, 0, 1]

private lemma pair_logLik {f u : Fin 4 → ℝ} (hf : f = ![1, 1, 2, 2]) (hu : ∀ r, |u r| ≤ 700) :
    clippedLogLik f ![1, 0, 0, 1] u = -Real.log (1 + Real.exp (u 1 - u 0)) - Real.log (1 + Real.exp (u 2 - u 3)) := by
  have hclip : ∀ r, clip700 (u r) = u r := fun r => by
    have := abs_le.1 (hu r)
    unfold clip700
    rw [min_eq_left this.2, max_eq_right this.1]
  subst hf
  have h0 : clippedLogit (![1, 1, 2, 2] : Fin 4 → ℝ) u (0 : Fin 4) = Real.exp (u 0) / (Real.exp (u 0) + Real.exp (u 1)) := by
    unfold clippedLogit logitProb rowsOf
    simp only [hclip]
    congr 1
    rw [Finset.sum_filter]
    simp [Fin.sum_univ_four]
  have h3 : clippedLogit (![1, 1, 2, 2] : Fin 4 → ℝ) u (3 : Fin 4) = Real.exp (u 3) / (Real.exp (u 2) + Real.exp (u 3)) := by
    unfold clippedLogit logitProb rowsOf
    simp only [hclip]
    congr 1
    rw [Finset.sum_filter]
    simp [Fin.sum_univ_four]
  unfold clippedLogLik
  rw [Fin.sum_univ_four, h0, h3]
  have e : ∀ a b : ℝ, Real.log (Real.exp a / (Real.exp a + Real.exp b)) = -Real.log (1 + Real.exp (b - a)) := fun a b => by
    rw [← Real.log_inv]
    congr 1
    rw [Real.exp_sub]
    have := Real.exp_pos a
    field_simp
  have e2 := e (u 3) (u 2)
  rw [add_comm] at e2
  simp only [Matrix.cons_val_zero, Matrix.cons_val_one, Matrix.cons_val, one_mul, zero_mul, add_zero]
  rw [e, e2]
  ring

theorem exPair_shares : |(⟨exPair, "obs", "y", []⟩ : LongData).equalShares| = 2 * Real.log 2 := by
  have hr : ∀ r : Fin 4, ((⟨exPair, "obs", "y", []⟩ : LongData).rows (exPair.val "obs" r)).card = 2 := by
    intro r
    have h : ∀ r : Fin 4, (Finset.univ.filter fun q : Fin 4 =>
        (![1, 1, 2, 2] : Fin 4 → ℝ) q = (![1, 1, 2, 2] : Fin 4 → ℝ) r).card = 2 := by
      intro r
      rw [Finset.card_filter, Fin.sum_univ_four]
      fin_cases r <;> simp
    exact h r
  have e : (⟨exPair, "obs", "y", []⟩ : LongData).equalShares =
      ∑ r : Fin 4, (![1, 0, 0, 1] : Fin 4 → ℝ) r * Real.log (1 / 2) := by
    refine Finset.sum_congr rfl fun r _ => ?_
    rw [hr r]
    norm_num
    rfl
  rw [e, Fin.sum_univ_four, one_div, Real.log_inv, abs_of_nonpos]
  · simp; ring
  · have := Real.log_nonneg (show (1 : ℝ) ≤ 2 by norm_num)
    simp
    linarith

private lemma pair_index (b : ℝ) (r : Fin 4) :
    rowIndex exPair "alt" (specColumns [1, 2] [("x", .allSame)]) [b] r = (![1, 0, 0, 1] : Fin 4 → ℝ) r * b := by
  simp [rowIndex, specColumns, SpecVal.columns, ColDesc.value, exPair, exFour]

private lemma pair_total {ids : List ℝ} {n : ℕ} {U : (Fin n → ℝ) → Fin 4 → ℝ} {θ : Fin n → ℝ} {l : List ℝ}
    (hl : List.ofFn θ = l) (hu : ∀ r, |U θ r| ≤ 700) :
    (⟨exPair, "obs", "y", ids⟩ : LongData).logLik (some 1) U θ =
      -Real.log (1 + Real.exp (U θ 1 - U θ 0)) - Real.log (1 + Real.exp (U θ 2 - U θ 3)) - (l.map (· ^ 2)).sum := by
  have hf : exPair.val "obs" = ![1, 1, 2, 2] := by simp [exPair, exFour]
  have hy : exPair.val "y" = ![1, 0, 0, 1] := by simp [exPair, exFour]
  have h2 := pair_logLik (f := exPair.val "obs") (u := U θ) hf hu
  rw [← h2, ← hl, List.map_ofFn, List.sum_ofFn]
  refine congrArg₂ (· - ·) ?_ (one_mul _)
  rw [← hy]
  rfl

private lemma small_le {β s : ℝ} (hb : β ^ 2 + s ^ 2 ≤ 2 * Real.log 2) : |β| ≤ 2 ∧ |s| ≤ 2 := by
  have := Real.log_two_lt_d9
  constructor <;> refine abs_le_of_sq_le_sq ?_ (by norm_num) <;> nlinarith [sq_nonneg β, sq_nonneg s]

/-- What the asymmetric model gives the rows. -/
private lemma asym_utilities {q : AltParams} (h0 : q.shape 1 = 0) (hi : ∀ a ∈ ([1, 2] : List ℝ), q.icpt a = 0) :
    let l1 := -Real.log (1 + Real.exp (q.shape 2))
    let l2 := q.shape 2 - Real.log (1 + Real.exp (q.shape 2))
    (∀ v, rowUtility .asym [1, 2] q 1 v = l1 - v * if 0 ≤ v then l1 else l2) ∧
    ∀ v, rowUtility .asym [1, 2] q 2 v = l2 - v * if 0 ≤ v then l2 else l1 := by
  intro l1 l2
  have hp : 0 < 1 + Real.exp (q.shape 2) := by positivity
  have e1 : Real.log (1 / (1 + Real.exp (q.shape 2))) = l1 := by rw [one_div, Real.log_inv]
  have e2 : Real.log (Real.exp (q.shape 2) / (1 + Real.exp (q.shape 2))) = l2 := by
    rw [Real.log_div (Real.exp_pos _).ne' hp.ne', Real.log_exp]
  have c1 : 1 - 1 / (1 + Real.exp (q.shape 2)) = Real.exp (q.shape 2) / (1 + Real.exp (q.shape 2)) := by
    field_simp; ring
  have c2 : 1 - Real.exp (q.shape 2) / (1 + Real.exp (q.shape 2)) = 1 / (1 + Real.exp (q.shape 2)) := by
    field_simp; ring
  have hl : (([1, 2] : List ℝ).length : ℝ) - 1 = 1 := by norm_num
  constructor
  · intro v
    simp only [rowUtility, List.map_cons, List.map_nil, List.sum_cons, List.sum_nil, add_zero, h0, Real.exp_zero, hl, div_one,
      hi 1 (by simp), zero_add, c1, e1, e2]
  · intro v
    simp only [rowUtility, List.map_cons, List.map_nil, List.sum_cons, List.sum_nil, add_zero, h0, Real.exp_zero, hl, div_one,
      hi 2 (by simp), zero_add, c2, e1, e2]

end AsymRidge

open AsymRidge LR in
/-- **C125** false of the asymmetric logit model with two alternatives and a ridge penalty: of two fits of one table with
ridge penalty 1, by an optimiser that finds global maxima, the one of the asymmetric logit model reports a lower
log-likelihood than the one of the multinomial logit model. -/
theorem asym_two_alternatives_worse (env : Env ℝ) (henv : env.badCol = fun _ => false) (label : PyVal ℝ → String)
    (sf : ℝ → ℝ) :
    ∃ m₁ m₂ k₁ k₂ t₁ t₂,
      let f := fun m k => logitFitCall exGlobal m ⟨⟨some (List.replicate k 0), none, none, none⟩, some 1, none, false⟩
      createChoiceModel env "MNL" exPair exLogitArgs = .ok m₁ ∧ HoldsResultsOf label sf m₁ (f m₁ k₁) t₁ ∧
      createChoiceModel env "Asym" exPair { exLogitArgs with shapeRefPos := .int 0 } = .ok m₂ ∧
      HoldsResultsOf label sf m₂ (f m₂ k₂) t₂ ∧ ∃ L₁ L₂, t₁.llf = some L₁ ∧ t₂.llf = some L₂ ∧ L₂ < L₁ := by
  have ha := (exFour_ids ![1, 0, 0, 1] ![1, 0, 0, 1]).1
  have hids := (exFour_ids ![1, 0, 0, 1] ![1, 0, 0, 1]).2
  obtain ⟨⟨chosen, hc⟩, hasc⟩ := exFour_facts ![1, 0, 0, 1]
  have key : ∀ {ty : String} {cls : ModelType} (sref : PyRef),
      modelTypeToClass.lookup ty = some cls → (cls = .mnl ∧ sref = .none ∨ cls = .asym ∧ sref = .int 0) →
      ∃ m k t, createChoiceModel env ty exPair { exLogitArgs with shapeRefPos := sref } = .ok m ∧ m.cls = cls ∧
        m.data = exPair ∧ m.args = { exLogitArgs with shapeRefPos := sref } ∧
        HoldsResultsOf label sf m
          (logitFitCall exGlobal m ⟨⟨some (List.replicate k 0), none, none, none⟩, some 1, none, false⟩) t := by
    intro ty cls sref hk hcls
    obtain ⟨m, hm, e1, e2, e3⟩ := exBuilt env henv hk (by rcases hcls with ⟨rfl, rfl⟩ | ⟨rfl, rfl⟩ <;> simp)
      (L := exPair) rfl ha [("x", .allSame)] (by simp [exPair, exFour]) (by simp [SpecVal.ValidFor])
      (by simp [specColumns, SpecVal.columns])
      (A := { exLogitArgs with shapeRefPos := sref }) (iref := .none) (sref := sref) rfl
      (by rcases hcls with ⟨rfl, rfl⟩ | ⟨rfl, rfl⟩ <;> rfl) (by simp)
      (by rcases hcls with ⟨rfl, rfl⟩ | ⟨rfl, rfl⟩ <;> simp)
    obtain ⟨k, t, ht⟩ := exHolds hm (by rw [e1]; rcases hcls with ⟨rfl, rfl⟩ | ⟨rfl, rfl⟩ <;> simp)
      (s := [("x", .allSame)]) (by rw [e3]; rfl)
      (by simp) (by rw [e3]; rfl) (by rw [e2, e3]; exact ha) (by simp)
      (by rw [e2, e3]; exact ⟨_, hc⟩) (by rw [e2, e3]; exact hasc) (by rw [e2]; simp [exPair, exFour])
      (by rw [e3]; exact fun _ => .inl rfl)
      (by
        rw [e1, e3]
        rcases hcls with ⟨rfl, rfl⟩ | ⟨rfl, rfl⟩
        · simp
        · exact fun _ => ⟨0, rfl, by simp, by simp⟩) label sf
    exact ⟨m, k, t, hm, e1, e2, e3, ht⟩
  obtain ⟨m₁, k₁, t₁, hm₁, c₁, d₁, g₁, ht₁⟩ := key (ty := "MNL") (cls := .mnl) .none (by decide) (.inl ⟨rfl, rfl⟩)
  obtain ⟨m₂, k₂, t₂, hm₂, c₂, d₂, g₂, ht₂⟩ := key (ty := "Asym") (cls := .asym) (.int 0) (by decide) (.inr ⟨rfl, rfl⟩)
  refine ⟨m₁, m₂, k₁, k₂, t₁, t₂, hm₁, ht₁, hm₂, ht₂, ?_⟩
  have hf : exPair.val "obs" = ![1, 1, 2, 2] := by simp [exPair, exFour]
  have hy : exPair.val "y" = ![1, 0, 0, 1] := by simp [exPair, exFour]
  -- the multinomial logit
  have hL₁ : ∃ L₁, t₁.llf = some L₁ ∧ ∀ b, |b| ≤ 700 → -2 * Real.log (1 + Real.exp (-b)) - b ^ 2 ≤ L₁ := by
    rw [mnl_logit c₁ (by rw [g₁]; rfl) (by rw [d₁]; simp [exPair, exFour])] at ht₁
    obtain ⟨cls, nm, dt, ds, ns, ar, ms⟩ := m₁
    dsimp only at c₁ d₁ g₁
    subst c₁ d₁ g₁
    obtain ⟨before, after, hst, hafter, rfl⟩ := ht₁
    obtain ⟨n, x, labels, H, F, hn, -, -, hrep, hmax, -⟩ :=
      mnl_fit_report hm₁ rfl (s := [("x", .allSame)]) rfl ha hids hc exGlobal_minimising.1 label sf before after
        _ rfl hst hafter
    subst hn
    refine ⟨_, hrep.statistics.llf, fun b hb => ?_⟩
    refine le_trans ?_ (hmax exGlobal_minimising.2 fun _ => b)
    have h1 : ∀ r : Fin 4, |(![1, 0, 0, 1] : Fin 4 → ℝ) r * b| ≤ 700 := by
      intro r; fin_cases r <;> simp [hb]
    have h3 := pair_index b
    have h4 := pair_total (ids := [1, 2]) (U := fun (θ : Fin 1 → ℝ) r => rowIndex exPair "alt"
      (specColumns [1, 2] [("x", .allSame)]) (List.ofFn θ) r) (θ := fun _ => b) (l := [b]) (by simp)
      (fun r => by rw [show List.ofFn (fun _ : Fin 1 => b) = [b] by simp, h3]; exact h1 r)
    rw [show List.ofFn (fun _ : Fin 1 => b) = [b] by simp, h3, h3, h3, h3] at h4
    refine le_of_eq (Eq.trans ?_ h4.symm)
    simp
    ring
  -- the asymmetric logit
  have hL₂ : ∃ L₂ β s p q, t₂.llf = some L₂ ∧ p + q = -(β * (2 * Real.log (1 + Real.exp s) - s)) ∧
      β ^ 2 + s ^ 2 ≤ 2 * Real.log 2 ∧
      L₂ = -Real.log (1 + Real.exp p) - Real.log (1 + Real.exp q) - (β ^ 2 + s ^ 2) := by
    obtain ⟨L, z, ρ, hl1, -, hz, -, -, -, hpen⟩ := fits_beat_equal_shares (s := [("x", .allSame)]) hm₂ rfl ha (by simp)
      hc exGlobal_minimising.1 exGlobal_minimising.2 rfl ht₂
    have h0 := (hpen (by simp)).2
    rw [Option.getD_some, one_mul] at h0
    have hpen : (z.map (· ^ 2)).sum ≤ 2 * Real.log 2 := h0.trans exPair_shares.le
    obtain ⟨cls, nm, dt, ds, ns, ar, ms⟩ := m₂
    dsimp only at c₂ d₂ g₂
    subst c₂ d₂ g₂
    obtain ⟨before, after, hst, hafter, rfl⟩ := ht₂
    obtain ⟨n, x, labels, H, F, U, hU, -, -, hrep, -⟩ :=
      logit_fit_report hm₂ (s := [("x", .allSame)]) rfl ha (by simp) hids hc exGlobal_minimising.1 label sf before after
        _ rfl hst hafter
    obtain ⟨p, q, hq, -, hnoi, hlen, hx, hu⟩ := hU x
    obtain ⟨w, hw, k, hk, hk', rfl, hk0⟩ := hq.eta rfl
    obtain rfl : k = 0 := by
      have : (PyRef.int 0 : PyRef) = .int (k : ℤ) := hk'
      injection this with e
      omega
    have hi := hq.noIcpt (hnoi.2 (.inr (.inl rfl)))
    have hnoi := hnoi.2 (.inr (.inl rfl))
    obtain ⟨b, hb⟩ : ∃ b, p.index = [b] := List.length_eq_one_iff.1 hlen
    have hx : List.ofFn x = [q.shape 2, b] := by
      rw [hx, hw, hnoi, hb]; rfl
    obtain ⟨a1, a2⟩ := asym_utilities (q := q) hk0 hi
    obtain rfl : z = [q.shape 2, b] := by
      have := hrep.statistics.params
      rw [this, hx] at hz
      exact (Option.some.inj hz).symm
    simp only [List.map_cons, List.map_nil, List.sum_cons, List.sum_nil, add_zero] at hpen
    set s := q.shape 2 with hs
    set l1 := -Real.log (1 + Real.exp s) with hl1
    set l2 := s - Real.log (1 + Real.exp s) with hl2
    have u : ∀ r : Fin 4, U x r = ![l1 - b * if 0 ≤ b then l1 else l2, l2, l1, l2 - b * if 0 ≤ b then l2 else l1] r := by
      intro r
      have := hu r
      rw [hb] at this
      have h := this.trans (congrArg _ (pair_index b r))
      refine h.trans ?_
      fin_cases r
      · exact (a1 _).trans (by simp)
      · exact (a2 _).trans (by simp)
      · exact (a1 _).trans (by simp)
      · exact (a2 _).trans (by simp)
    obtain ⟨v1, v2⟩ := small_le (β := b) (s := s) (by linarith)
    have hM := soft s
    obtain ⟨m1, m2⟩ := log_cosh (s / 2)
    have hlog := Real.log_two_lt_d9
    have hlog' := Real.log_two_gt_d9
    have hs' := abs_le.1 v2
    have w1 : |l1| ≤ 10 := by rw [abs_le]; constructor <;> nlinarith
    have w2 : |l2| ≤ 10 := by rw [abs_le]; constructor <;> nlinarith
    have hw : ∀ l m : ℝ, |l| ≤ 10 → |m| ≤ 10 → |l - b * m| ≤ 700 := fun l m h1 h2 => by
      refine (abs_sub _ _).trans ?_
      rw [abs_mul]
      nlinarith [abs_nonneg b, abs_nonneg m]
    have hbound : ∀ r : Fin 4, |U x r| ≤ 700 := by
      intro r
      rw [u r]
      fin_cases r
      · exact hw _ _ w1 (by split_ifs <;> assumption)
      · exact w2.trans (by norm_num)
      · exact w1.trans (by norm_num)
      · exact hw _ _ w2 (by split_ifs <;> assumption)
    refine ⟨_, b, s, U x (1 : Fin 4) - U x (0 : Fin 4), U x (2 : Fin 4) - U x (3 : Fin 4), hrep.statistics.llf, ?_, by linarith,
      ?_⟩
    · rw [u, u, u, u]
      simp only [Matrix.cons_val_zero, Matrix.cons_val_one, Matrix.cons_val]
      split_ifs <;> rw [hl1, hl2] <;> ring
    · refine (pair_total (ids := [1, 2]) hx hbound).trans ?_
      simp
      ring
  obtain ⟨L₁, hL₁, hbest⟩ := hL₁
  obtain ⟨L₂, β, s, p, q, hL₂, hsum, hb, rfl⟩ := hL₂
  obtain ⟨b, hb1, hb2⟩ := core hsum hb
  exact ⟨L₁, _, hL₁, hL₂, hb2.trans_le (hbest b hb1)⟩

end

end Pylogit
