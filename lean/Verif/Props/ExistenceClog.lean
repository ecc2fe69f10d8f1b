import Verif.Props.Existence
import Verif.Props.NullModel

/-!
# C88 for the clog-log model: the jump at 3.7

The clog-log transformation uses `exp v` from `v = 3.7` on and `log (exp (exp v) - 1)` below, so that it jumps from
just below `log (exp (exp 3.7) - 1)` to `exp 3.7`.  A data set whose best transformed utility is exactly the limit from
the left has no best coefficient.
-/

set_option linter.unusedSectionVars false

open Finset Matrix Function Filter Topology

namespace Pylogit

open Spec

/-- Three observations with two alternatives each; the first two chose alternative 0, the third chose alternative 1.
The first column is a constant for alternative 0, the second a constant for alternative 1, the third again one for
alternative 0. -/
noncomputable def exClogJump : FitData (Fin 3 × Fin 2) (Fin 3) (Fin 2) (Fin 3) (Fin 2) where
  design := Matrix.of fun r => if r.2 = 0 then ![1, 0, 1] else ![0, 1, 0]
  altIDs := Prod.snd
  rowsToObs := Matrix.of fun r o => if r.1 = o then 1 else 0
  rowsToAlts := Matrix.of fun r j => if r.2 = j then 1 else 0
  choice := fun r => if r.2 = (![0, 0, 1] : Fin 3 → Fin 2) r.1 then 1 else 0

/-- The limit from the left of the exponentiated transformed utility at 3.7. -/
noncomputable def leftLimit : ℝ := Real.exp (Real.exp 3.7) - 1

/-- The utility whose exponentiated transform is half that limit. -/
noncomputable def halfUtility : ℝ := Real.log (Real.log (1 + leftLimit / 2))

private lemma exp37_lt : Real.exp 3.7 < 700 := by
  have h1 : Real.exp 1 < 2.7182818286 := Real.exp_one_lt_d9
  have h4 : Real.exp 4 = Real.exp 1 ^ 4 := by rw [← Real.exp_nat_mul]; norm_num
  have : Real.exp 3.7 < Real.exp 4 := Real.exp_lt_exp.2 (by norm_num)
  have : Real.exp 1 ^ 4 < 3 ^ 4 := by gcongr; linarith
  linarith

private lemma one_lt_exp37 : 3 < Real.exp 3.7 := by
  have := Real.add_one_lt_exp (show (3.7 : ℝ) ≠ 0 by norm_num)
  linarith

private lemma leftLimit_gt : 3 < leftLimit := by
  have := Real.add_one_lt_exp (show Real.exp 3.7 ≠ 0 from (Real.exp_pos _).ne')
  have := one_lt_exp37
  unfold leftLimit; linarith

private lemma leftLimit_lt : leftLimit < Real.exp 700 := by
  have := Real.exp_lt_exp.2 exp37_lt
  unfold leftLimit; linarith

private lemma clip_id {h : ℝ} (h1 : -700 ≤ h) (h2 : h ≤ 700) : clipExponent h = h := by
  unfold clipExponent maxExponentVal minExponentVal
  rw [if_neg (by linarith), if_neg (by linarith)]

private lemma clog_low {v : ℝ} (hv : v < 3.7) : clogH v = Real.log (Real.exp (Real.exp v) - 1) := by
  simpa using clogH_low hv

private lemma expexp_pos (v : ℝ) : 0 < Real.exp (Real.exp v) - 1 := by
  have := Real.add_one_lt_exp (Real.exp_pos v).ne'
  have := Real.exp_pos v
  linarith

private lemma half_spec : halfUtility < 3.7 ∧ Real.exp (Real.exp halfUtility) - 1 = leftLimit / 2 := by
  have h3 := leftLimit_gt
  have hlog : 0 < Real.log (1 + leftLimit / 2) := Real.log_pos (by linarith)
  have e1 : Real.exp halfUtility = Real.log (1 + leftLimit / 2) := Real.exp_log hlog
  refine ⟨?_, by rw [e1, Real.exp_log (by linarith)]; ring⟩
  rw [← Real.exp_lt_exp, e1, ← Real.exp_lt_exp, Real.exp_log (by linarith)]
  unfold leftLimit at *
  linarith

/-- The exponentiated, clipped transform of the utility `3.7 + b`. -/
private noncomputable def yOf (b : ℝ) : ℝ := Real.exp (clipExponent (clogH (3.7 + b)))

private lemma y_half : Real.exp (clipExponent (clogH halfUtility)) = leftLimit / 2 := by
  obtain ⟨h1, h2⟩ := half_spec
  have h3 := leftLimit_gt
  have h4 := leftLimit_lt
  rw [clog_low h1, h2, clip_id, Real.exp_log (by linarith)]
  · have := Real.log_pos (show 1 < leftLimit / 2 by linarith)
    linarith
  · rw [Real.log_le_iff_le_exp (by linarith)]; linarith

private lemma y_ne (b : ℝ) : yOf b ≠ leftLimit := by
  have h3 := leftLimit_gt
  have h4 := leftLimit_lt
  by_cases hb : 0 ≤ b
  · have hv : (3.7 : ℝ) ≤ 3.7 + b := by linarith
    have e : clogH (3.7 + b) = Real.exp (3.7 + b) := by simpa using clogH_high hv
    have hge : Real.exp 3.7 ≤ Real.exp (3.7 + b) := Real.exp_le_exp.2 hv
    have hc : Real.exp 3.7 ≤ clipExponent (Real.exp (3.7 + b)) := by
      unfold clipExponent maxExponentVal minExponentVal
      have := exp37_lt
      have := Real.exp_pos (3.7 + b)
      split_ifs <;> linarith
    have := Real.exp_le_exp.2 hc
    have : leftLimit < yOf b := by unfold leftLimit yOf; rw [e]; linarith
    exact this.ne'
  · have hv : 3.7 + b < 3.7 := by linarith
    have hlt : Real.exp (Real.exp (3.7 + b)) - 1 < leftLimit := by
      have := Real.exp_lt_exp.2 (Real.exp_lt_exp.2 hv)
      unfold leftLimit; linarith
    have hl : Real.log (Real.exp (Real.exp (3.7 + b)) - 1) < Real.log leftLimit :=
      Real.log_lt_log (expexp_pos _) hlt
    have hll : 0 < Real.log leftLimit := Real.log_pos (by linarith)
    have hlu : Real.log leftLimit < 700 := by
      rw [Real.log_lt_iff_lt_exp (by linarith)]; exact h4
    have hc : clipExponent (clogH (3.7 + b)) < Real.log leftLimit := by
      rw [clog_low hv]
      unfold clipExponent maxExponentVal minExponentVal
      split_ifs <;> linarith
    have := Real.exp_lt_exp.2 hc
    rw [Real.exp_log (by linarith)] at this
    exact this.ne

private lemma y_low {b : ℝ} (hb : b < 0) (hb' : -1 < b) :
    yOf b = Real.exp (Real.exp (3.7 + b)) - 1 := by
  have hv : 3.7 + b < 3.7 := by linarith
  have hp := expexp_pos (3.7 + b)
  have h1 : 1 < Real.exp (Real.exp (3.7 + b)) - 1 := by
    have a1 := Real.add_one_lt_exp (Real.exp_pos (3.7 + b)).ne'
    have a2 := Real.add_one_lt_exp (show 3.7 + b ≠ 0 by linarith)
    linarith
  have h2 : Real.exp (Real.exp (3.7 + b)) - 1 < Real.exp 700 := by
    have := Real.exp_lt_exp.2 (Real.exp_lt_exp.2 hv)
    have := Real.exp_lt_exp.2 exp37_lt
    linarith
  unfold yOf
  rw [clog_low hv, clip_id, Real.exp_log hp]
  · have := Real.log_pos h1; linarith
  · rw [Real.log_le_iff_le_exp hp]; exact h2.le

/-- The log-likelihood of the three observations when the exponentiated transformed utility of alternative 0 is `y`. -/
private noncomputable def G (y : ℝ) : ℝ :=
  2 * Real.log (y / (y + leftLimit / 2)) + Real.log (leftLimit / 2 / (y + leftLimit / 2))

private lemma G_lt {y : ℝ} (hy : 0 < y) (hne : y ≠ leftLimit) : G y < G leftLimit := by
  have h3 := leftLimit_gt
  unfold G
  generalize leftLimit = L at *
  have hL : 0 < L := by linarith
  have e1 : L / (L + L / 2) = 2 / 3 := by field_simp; ring
  have e2 : L / 2 / (L + L / 2) = 1 / 3 := by field_simp; ring
  rw [e1, e2]
  have hd : 0 < y + L / 2 := by linarith
  set p := y / (y + L / 2) with hp
  have hq : L / 2 / (y + L / 2) = 1 - p := by rw [hp]; field_simp; ring
  have hp0 : 0 < p := by positivity
  have hq0 : 0 < 1 - p := by rw [← hq]; positivity
  have hpne : p ≠ 2 / 3 := by
    rw [hp]
    intro h
    rw [div_eq_div_iff hd.ne' (by norm_num)] at h
    exact hne (by linarith)
  rw [hq]
  have l1 := Real.log_lt_sub_one_of_pos (show 0 < p / (2 / 3) by positivity) (by
    rw [Ne, div_eq_one_iff_eq (by norm_num)]; exact hpne)
  have l2 := Real.log_le_sub_one_of_pos (show 0 < (1 - p) / (1 / 3) by positivity)
  rw [Real.log_div hp0.ne' (by norm_num)] at l1
  rw [Real.log_div hq0.ne' (by norm_num)] at l2
  linarith

private lemma jump_obs : Indicates exClogJump.rowsToObs Prod.fst := fun _ _ => rfl

private lemma jump_alts : Indicates exClogJump.rowsToAlts Prod.snd := fun _ _ => rfl

private lemma jump_util (x : Fin 3 → ℝ) (r : Fin 3 × Fin 2) :
    (exClogJump.design *ᵥ x) r = if r.2 = 0 then x 0 + x 2 else x 1 := by
  obtain ⟨o, j⟩ := r
  fin_cases j <;> simp [exClogJump, mulVec, dotProduct, Fin.sum_univ_three]

private lemma jump_logLik (ridge : Option ℝ) (x : Fin 3 → ℝ) (h0 : x 0 = 3.7)
    (h1 : x 1 = halfUtility) :
    (clogEstimatorPlain 0 exClogJump ridge none (some [0, 1])).logLik x
      = G (yOf (x 2)) - ridge.getD 0 * (3.7 ^ 2 + halfUtility ^ 2 + x 2 ^ 2) := by
  have hc : OneChoice Prod.fst exClogJump.choice (fun o => (o, (![0, 0, 1] : Fin 3 → Fin 2) o)) := by
    refine ⟨fun o => rfl, fun o => by simp [exClogJump], ?_⟩
    rintro ⟨o, j⟩ h
    have : j ≠ (![0, 0, 1] : Fin 3 → Fin 2) o := fun e => h (by simp [e])
    simp [exClogJump, this]
  have hrows : ∀ o : Fin 3, rowsOf (Prod.fst : Fin 3 × Fin 2 → Fin 3) o = {(o, 0), (o, 1)} := by decide
  have hT : ∀ r, clogTransform (S := Empty) (some (0 : Fin 2)) (exClogJump.design *ᵥ x) exClogJump.altIDs
      exClogJump.rowsToAlts none none r = if r.2 = 0 then clogH (3.7 + x 2) else clogH halfUtility := by
    intro r
    simp only [clogTransform, allIntercepts, jump_util, h0, h1]
    split_ifs <;> simp [mulVec, dotProduct]
  rw [clogEstimatorPlain, estimatorNone_loglik jump_obs hc]
  simp only [penalisedLogLik, Fin.sum_univ_three]
  have hp : ∀ r, clippedLogit Prod.fst (clogTransform (S := Empty) (some (0 : Fin 2)) (exClogJump.design *ᵥ x)
      exClogJump.altIDs exClogJump.rowsToAlts none none) r
      = (if r.2 = 0 then yOf (x 2) else leftLimit / 2) / (yOf (x 2) + leftLimit / 2) := by
    rintro ⟨o, j⟩
    rw [← longProbs_eq_clippedLogit jump_obs, longProbs_eq jump_obs, hrows, Finset.sum_pair (by simp)]
    simp only [longExponentials, hT, if_true, Fin.reduceEq, one_ne_zero, if_false, y_half]
    fin_cases j
    · simp [yOf]
    · simp [yOf, y_half]
  simp only [hp]
  simp [G, h0, h1, Fin.sum_univ_three, penalty]
  ring

/-- **C88** (clog-log, witness). However large the penalty, with two of the three coefficients held at their starting
values no parameter vector is best. -/
theorem clog_ridge_not_attained (ridge : Option ℝ) (hρ : ∀ ρ, ridge = some ρ → 0 ≤ ρ) (b : ℝ)
    (x : Fin 3 → ℝ) :
    ¬ IsBest (clogEstimatorPlain 0 exClogJump ridge none (some [0, 1])).logLik [0, 1]
      ![3.7, halfUtility, b] x := by
  rintro ⟨h1, h2⟩
  have x0 : x 0 = 3.7 := by simpa using h1 0 (by simp)
  have x1 : x 1 = halfUtility := by simpa using h1 1 (by simp)
  have hr : 0 ≤ ridge.getD 0 := ridge_getD_nonneg hρ
  have hy : 0 < yOf (x 2) := Real.exp_pos _
  have hG := G_lt hy (y_ne (x 2))
  have hcont : Tendsto (fun t : ℝ => G (Real.exp (Real.exp (3.7 + t)) - 1) - ridge.getD 0 * t ^ 2)
      (𝓝[<] 0) (𝓝 (G leftLimit)) := by
    have h3 := leftLimit_gt
    have hc : ContinuousAt (fun t : ℝ =>
        G (Real.exp (Real.exp (3.7 + t)) - 1) - ridge.getD 0 * t ^ 2) 0 := by
      unfold G
      have hp := expexp_pos (3.7 + 0)
      have hL : 0 < leftLimit / 2 := by linarith
      have hd : Real.exp (Real.exp (3.7 + 0)) - 1 + leftLimit / 2 ≠ 0 := by positivity
      have cy : ContinuousAt (fun t : ℝ => Real.exp (Real.exp (3.7 + t)) - 1) 0 := by fun_prop
      refine ContinuousAt.sub (ContinuousAt.add (ContinuousAt.mul continuousAt_const
        (ContinuousAt.log (ContinuousAt.div cy (cy.add continuousAt_const) hd) ?_))
        (ContinuousAt.log (ContinuousAt.div continuousAt_const (cy.add continuousAt_const) hd) ?_))
        (by fun_prop)
      · exact (div_pos hp (by positivity)).ne'
      · exact (div_pos hL (by positivity)).ne'
    have := hc.tendsto.mono_left (nhdsWithin_le_nhds (s := Set.Iio 0))
    simpa [leftLimit] using this
  have hlt : G (yOf (x 2)) - ridge.getD 0 * x 2 ^ 2 < G leftLimit := by
    have := mul_nonneg hr (sq_nonneg (x 2))
    linarith
  have ev := hcont.eventually (lt_mem_nhds hlt)
  have ev2 : ∀ᶠ t : ℝ in 𝓝[<] 0, -1 < t ∧ t < 0 := by
    refine (Filter.Eventually.and ?_ (eventually_mem_nhdsWithin))
    exact nhdsWithin_le_nhds (lt_mem_nhds (by norm_num : (-1 : ℝ) < 0))
  obtain ⟨t, ht, ht1, ht2⟩ := (ev.and ev2).exists
  have := h2 ![3.7, halfUtility, t] (by simp)
  rw [jump_logLik ridge x x0 x1, jump_logLik ridge ![3.7, halfUtility, t] rfl rfl] at this
  simp only [Matrix.cons_val_two, Matrix.tail_cons, Matrix.head_cons, Matrix.cons_val] at this
  rw [y_low ht2 ht1] at this
  linarith

end Pylogit
