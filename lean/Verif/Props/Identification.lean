import Mathlib.Analysis.SpecialFunctions.Log.Deriv
import Verif.Props.Existence

/-!
# C89: which coefficients of the MNL the data determine
-/

set_option linter.unusedSectionVars false

open Finset Matrix Function

namespace Pylogit

namespace Spec

variable {R O K : Type} [Fintype K]

/-- No utility is clipped. -/
def Unclipped (X : Matrix R K ℝ) (x : K → ℝ) : Prop := ∀ r, |(X *ᵥ x) r| ≤ 700

/-- `x` is best among the unclipped coefficient vectors that agree with `x₀` at the constrained positions. -/
def BestUnclipped (LL : (K → ℝ) → ℝ) (X : Matrix R K ℝ) (fixed : List K) (x₀ x : K → ℝ) : Prop :=
  (∀ i ∈ fixed, x i = x₀ i) ∧ Unclipped X x ∧
    ∀ y, (∀ i ∈ fixed, y i = x₀ i) → Unclipped X y → LL y ≤ LL x

/-- Moving the coefficients in the direction `v` changes all utilities of an observation by the same amount. -/
def ConstantWithin (f : R → O) (X : Matrix R K ℝ) (v : K → ℝ) : Prop :=
  ∀ r s, f r = f s → (X *ᵥ v) r = (X *ᵥ v) s

end Spec

open Spec

variable {R O A K ι : Type} [Fintype R] [DecidableEq R] [Fintype O] [DecidableEq O]
  [Fintype K] [DecidableEq K]

/-- Strict tangent inequality for one row. -/
theorem log_logit_tangent_lt {M : Matrix R O ℝ} {f : R → O} (hM : Indicates M f) {u v : R → ℝ}
    (hu : ∀ r, |u r| ≤ 700) (hv : ∀ r, |v r| ≤ 700) (r : R) {s t : R} (hs : f s = f r) (ht : f t = f r)
    (hne : v s - u s ≠ v t - u t) :
    Real.log (longProbs M v r) < Real.log (longProbs M u r) +
      ((v r - u r) - ∑ s ∈ rowsOf f (f r), longProbs M u s * (v s - u s)) := by
  rw [log_longProbs hM, log_longProbs hM, clip_eq (hu r), clip_eq (hv r)]
  set D := ∑ s ∈ rowsOf f (f r), longProbs M u s * (v s - u s) with hD
  have pu := denom_pos f u r
  have key : (∑ s ∈ rowsOf f (f r), longExponentials u s) * Real.exp D <
      ∑ s ∈ rowsOf f (f r), longExponentials v s := by
    have h1 : ∀ s ∈ rowsOf f (f r), longProbs M u s * (1 + ((v s - u s) - D)) ≤
        longProbs M u s * Real.exp ((v s - u s) - D) := fun s _ =>
      mul_le_mul_of_nonneg_left (by linarith [Real.add_one_le_exp ((v s - u s) - D)])
        (longProbs_pos hM u s).le
    obtain ⟨q, hq, hqD⟩ : ∃ q, f q = f r ∧ v q - u q - D ≠ 0 := by
      by_cases h : v s - u s - D = 0
      · exact ⟨t, ht, fun h' => hne (by linarith)⟩
      · exact ⟨s, hs, h⟩
    have h2 := Finset.sum_lt_sum h1 ⟨q, mem_rowsOf.2 hq, mul_lt_mul_of_pos_left
      (by linarith [Real.add_one_lt_exp hqD]) (longProbs_pos hM u q)⟩
    have h3 : ∑ s ∈ rowsOf f (f r), longProbs M u s * (1 + ((v s - u s) - D)) = 1 := by
      have : ∀ s ∈ rowsOf f (f r), longProbs M u s * (1 + ((v s - u s) - D)) =
          (1 - D) * longProbs M u s + longProbs M u s * (v s - u s) := fun s _ => by ring
      rw [Finset.sum_congr rfl this, Finset.sum_add_distrib, ← Finset.mul_sum, longProbs_sum hM]
      rw [← hD]; ring
    have h4 : ∀ s ∈ rowsOf f (f r), longProbs M u s * Real.exp ((v s - u s) - D) =
        longExponentials v s / ((∑ t ∈ rowsOf f (f r), longExponentials u t) * Real.exp D) := by
      intro s hs
      rw [longProbs_eq hM, mem_rowsOf.1 hs, longExponentials, longExponentials, clip_eq (hu s),
        clip_eq (hv s), div_mul_eq_mul_div, ← Real.exp_add, div_mul_eq_div_div,
        div_eq_div_iff pu.ne' (by positivity)]
      have : Real.exp (u s + (v s - u s - D)) = Real.exp (v s) / Real.exp D := by
        rw [← Real.exp_sub]; congr 1; ring
      rw [this]; field_simp
    rw [h3, Finset.sum_congr rfl h4, ← Finset.sum_div, lt_div_iff₀ (by positivity), one_mul] at h2
    exact h2
  have hlog := Real.log_lt_log (by positivity) key
  rw [Real.log_mul pu.ne' (Real.exp_pos _).ne', Real.log_exp] at hlog
  linarith

section Midpoint

variable {M : Matrix R O ℝ} {f : R → O} {X : Matrix R K ℝ} {x y : K → ℝ}

theorem mulVec_midpoint (X : Matrix R K ℝ) (x y : K → ℝ) (r : R) :
    (X *ᵥ ((1 / 2 : ℝ) • (x + y))) r = ((X *ᵥ x) r + (X *ᵥ y) r) / 2 := by
  rw [Matrix.mulVec_smul, Matrix.mulVec_add]; simp; ring

theorem unclipped_midpoint (hx : Unclipped X x) (hy : Unclipped X y) :
    Unclipped X ((1 / 2 : ℝ) • (x + y)) := by
  intro r
  rw [mulVec_midpoint, abs_le]
  have h1 := abs_le.1 (hx r)
  have h2 := abs_le.1 (hy r)
  constructor <;> linarith [h1.1, h1.2, h2.1, h2.2]

theorem log_probs_midpoint (hM : Indicates M f) (hx : Unclipped X x) (hy : Unclipped X y) (r : R) :
    Real.log (longProbs M (X *ᵥ x) r) + Real.log (longProbs M (X *ᵥ y) r) ≤
      2 * Real.log (longProbs M (X *ᵥ ((1 / 2 : ℝ) • (x + y))) r) := by
  have hz := unclipped_midpoint hx hy
  have h1 := log_logit_tangent hM hz hx r
  have h2 := log_logit_tangent hM hz hy r
  have e : ∑ s ∈ rowsOf f (f r), longProbs M (X *ᵥ ((1 / 2 : ℝ) • (x + y))) s *
        ((X *ᵥ y) s - (X *ᵥ ((1 / 2 : ℝ) • (x + y))) s) =
      -∑ s ∈ rowsOf f (f r), longProbs M (X *ᵥ ((1 / 2 : ℝ) • (x + y))) s *
        ((X *ᵥ x) s - (X *ᵥ ((1 / 2 : ℝ) • (x + y))) s) := by
    rw [← Finset.sum_neg_distrib]
    refine Finset.sum_congr rfl fun s _ => ?_
    rw [mulVec_midpoint X x y s]; ring
  rw [e] at h2
  have e2 := mulVec_midpoint X x y r
  linarith

theorem log_probs_midpoint_lt (hM : Indicates M f) (hx : Unclipped X x) (hy : Unclipped X y) {r s t : R}
    (hs : f s = f r) (ht : f t = f r) (hne : (X *ᵥ (y - x)) s ≠ (X *ᵥ (y - x)) t) :
    Real.log (longProbs M (X *ᵥ x) r) + Real.log (longProbs M (X *ᵥ y) r) <
      2 * Real.log (longProbs M (X *ᵥ ((1 / 2 : ℝ) • (x + y))) r) := by
  have hz := unclipped_midpoint hx hy
  rw [Matrix.mulVec_sub] at hne
  have h1 := log_logit_tangent_lt hM hz hx r hs ht (by
    rw [mulVec_midpoint, mulVec_midpoint]
    intro h
    apply hne
    simp only [Pi.sub_apply]
    linarith)
  have h2 := log_logit_tangent hM hz hy r
  have e : ∑ s ∈ rowsOf f (f r), longProbs M (X *ᵥ ((1 / 2 : ℝ) • (x + y))) s *
        ((X *ᵥ y) s - (X *ᵥ ((1 / 2 : ℝ) • (x + y))) s) =
      -∑ s ∈ rowsOf f (f r), longProbs M (X *ᵥ ((1 / 2 : ℝ) • (x + y))) s *
        ((X *ᵥ x) s - (X *ᵥ ((1 / 2 : ℝ) • (x + y))) s) := by
    rw [← Finset.sum_neg_distrib]
    refine Finset.sum_congr rfl fun s _ => ?_
    rw [mulVec_midpoint X x y s]; ring
  rw [e] at h2
  have e2 := mulVec_midpoint X x y r
  linarith

end Midpoint

section Ident

variable {d : FitData R O A K ι} {f : R → O} {c : O → R} {weights : Option (R → ℝ)}

theorem mnlEstimator_loglik (hM : Indicates d.rowsToObs f) (hc : OneChoice f d.choice c) (ridge : Option ℝ)
    (con : Option (List K)) (x : K → ℝ) :
    (mnlEstimator d ridge weights con).logLik x =
      ∑ o, (weights.getD fun _ => 1) (c o) * Real.log (longProbs d.rowsToObs (d.design *ᵥ x) (c o)) -
        ridge.getD 0 * ∑ k, x k ^ 2 := by
  simp only [mnlEstimator, estimatorNone]
  rw [loglik_formula hc, estWeights_getD]
  simp only [modelProbs, mnlTransform]
  cases ridge <;> simp [Spec.penalty]

/-- **C89** (estimates agree). Two best coefficient vectors assign the same probabilities to every observation of
positive weight, and differ only in a direction in which the utilities of such an observation all
change by the same amount.  This holds with or without a penalty. -/
theorem mnl_estimates_agree (hM : Indicates d.rowsToObs f) (hc : OneChoice f d.choice c)
    (hw : ObsWeights f weights) (hw0 : NonnegWeights weights) {ridge : Option ℝ}
    (hρ : ∀ ρ, ridge = some ρ → 0 ≤ ρ) {con : Option (List K)} {x₀ x y : K → ℝ}
    (hx : BestUnclipped (mnlEstimator d ridge weights con).logLik d.design (con.getD []) x₀ x)
    (hy : BestUnclipped (mnlEstimator d ridge weights con).logLik d.design (con.getD []) x₀ y)
    {r : R} (hr : 0 < (weights.getD fun _ => 1) r) :
    (∀ s, f s = f r → (d.design *ᵥ (y - x)) s = (d.design *ᵥ (y - x)) r) ∧
      longProbs d.rowsToObs (d.design *ᵥ y) r = longProbs d.rowsToObs (d.design *ᵥ x) r := by
  have hconst : ∀ s, f s = f r → (d.design *ᵥ (y - x)) s = (d.design *ᵥ (y - x)) r := by
    intro s hs
    by_contra hne
    set z := (1 / 2 : ℝ) • (x + y) with hz
    have hzb := hx.2.2 z (fun i hi => by
      simp only [hz, Pi.smul_apply, Pi.add_apply, hx.1 i hi, hy.1 i hi, smul_eq_mul]; ring)
      (unclipped_midpoint hx.2.1 hy.2.1)
    have hzy := hx.2.2 y hy.1 hy.2.1
    have hyx := hy.2.2 x hx.1 hx.2.1
    rw [mnlEstimator_loglik hM hc, mnlEstimator_loglik hM hc] at hzb hzy hyx
    have hw0' : ∀ o, 0 ≤ (weights.getD fun _ => 1) (c o) := fun o => nonnegWeights_default hw0 (c o)
    have hsum : ∑ o, (weights.getD fun _ => 1) (c o) * (Real.log (longProbs d.rowsToObs (d.design *ᵥ x) (c o)) +
          Real.log (longProbs d.rowsToObs (d.design *ᵥ y) (c o))) <
        ∑ o, (weights.getD fun _ => 1) (c o) * (2 * Real.log (longProbs d.rowsToObs (d.design *ᵥ z) (c o))) := by
      refine Finset.sum_lt_sum (fun o _ => mul_le_mul_of_nonneg_left
        (log_probs_midpoint hM hx.2.1 hy.2.1 _) (hw0' o)) ⟨f r, mem_univ _, ?_⟩
      refine mul_lt_mul_of_pos_left (log_probs_midpoint_lt hM hx.2.1 hy.2.1
        (by rw [hc.mem]; exact hs) (by rw [hc.mem]) hne) ?_
      have : (weights.getD fun _ => 1) (c (f r)) = (weights.getD fun _ => 1) r :=
        obsWeights_default hw _ _ (hc.mem (f r))
      rw [this]; exact hr
    have hsq : ∑ k, z k ^ 2 ≤ (∑ k, x k ^ 2 + ∑ k, y k ^ 2) / 2 := by
      rw [← Finset.sum_add_distrib, Finset.sum_div]
      refine Finset.sum_le_sum fun k _ => ?_
      simp only [hz, Pi.smul_apply, Pi.add_apply, smul_eq_mul]
      nlinarith [sq_nonneg (x k - y k)]
    have hr2 := mul_le_mul_of_nonneg_left hsq (ridge_getD_nonneg hρ)
    simp only [mul_add, Finset.sum_add_distrib] at hsum
    have e2 : ∑ o, (weights.getD fun _ => 1) (c o) * (2 * Real.log (longProbs d.rowsToObs (d.design *ᵥ z) (c o))) =
        2 * ∑ o, (weights.getD fun _ => 1) (c o) * Real.log (longProbs d.rowsToObs (d.design *ᵥ z) (c o)) := by
      rw [Finset.mul_sum]; exact Finset.sum_congr rfl fun o _ => by ring
    rw [e2] at hsum
    nlinarith
  refine ⟨hconst, probabilities_shift hM (c := (d.design *ᵥ (y - x)) r) (fun s hs => ?_)
    (fun s _ => hx.2.1 s) (fun s _ => hy.2.1 s)⟩
  rw [← hconst s hs, Matrix.mulVec_sub]; simp

/-- **C89** (identification). Without a penalty and with positive weights, a best coefficient vector whose
utilities are strictly inside the clipping bound is the only one iff no change of the free coefficients shifts
all utilities of every observation by the same amount. -/
theorem mnl_identified_iff (hM : Indicates d.rowsToObs f) (hc : OneChoice f d.choice c)
    (hw : ObsWeights f weights) (hw1 : ∀ w, weights = some w → ∀ r, 0 < w r) {con : Option (List K)}
    {x₀ x : K → ℝ}
    (hx : BestUnclipped (mnlEstimator d none weights con).logLik d.design (con.getD []) x₀ x)
    (hin : ∀ r, |(d.design *ᵥ x) r| < 700) :
    (∀ y, BestUnclipped (mnlEstimator d none weights con).logLik d.design (con.getD []) x₀ y → y = x) ↔
      ∀ v : K → ℝ, (∀ i ∈ con.getD [], v i = 0) → ConstantWithin f d.design v → v = 0 := by
  have hw0 : NonnegWeights weights := fun w h r => (hw1 w h r).le
  constructor
  · intro huniq v hv hcv
    -- a small multiple of `v` stays unclipped
    obtain ⟨ε, hε, hbound⟩ : ∃ ε : ℝ, 0 < ε ∧ ∀ r, |(d.design *ᵥ (x + ε • v)) r| ≤ 700 := by
      have hcont : ∀ r, ∀ᶠ t in nhds (0 : ℝ), |(d.design *ᵥ (x + t • v)) r| < 700 := by
        intro r
        have hc' : Continuous fun t : ℝ => |(d.design *ᵥ (x + t • v)) r| := by
          have : (fun t : ℝ => |(d.design *ᵥ (x + t • v)) r|) =
              fun t => |(d.design *ᵥ x) r + t * (d.design *ᵥ v) r| := by
            funext t; rw [Matrix.mulVec_add, Matrix.mulVec_smul]; simp
          rw [this]; fun_prop
        exact (hc'.tendsto 0).eventually (gt_mem_nhds (by simpa using hin r))
      have hall := Filter.eventually_all.2 hcont
      obtain ⟨ε, hε, hball⟩ := Metric.eventually_nhds_iff.1 hall
      refine ⟨ε / 2, by positivity, fun r => (hball (y := ε / 2) ?_ r).le⟩
      rw [Real.dist_eq, sub_zero, abs_of_pos (by positivity)]; linarith
    have hsame : (mnlEstimator d none weights con).logLik (x + ε • v) =
        (mnlEstimator d none weights con).logLik x := by
      rw [mnlEstimator_loglik hM hc, mnlEstimator_loglik hM hc]
      simp only [Option.getD_none, zero_mul, sub_zero]
      refine Finset.sum_congr rfl fun o _ => ?_
      rw [probabilities_shift hM (c := (d.design *ᵥ (ε • v)) (c o)) (h := d.design *ᵥ x) (fun s hs => ?_)
        (fun s _ => hx.2.1 s) (fun s _ => hbound s)]
      rw [Matrix.mulVec_add, Pi.add_apply]
      simp only [Matrix.mulVec_smul, Pi.smul_apply]
      rw [hcv s (c o) hs]
    have h := huniq (x + ε • v) ⟨fun i hi => by simp [hv i hi, hx.1 i hi], hbound,
      fun y hy1 hy2 => hsame ▸ hx.2.2 y hy1 hy2⟩
    have h' : ε • v = 0 := by simpa using h
    exact (smul_eq_zero.1 h').resolve_left hε.ne'
  · intro hinj y hy
    have hpos : ∀ r, 0 < (weights.getD fun _ => 1) r := by
      intro r
      cases h : weights with
      | none => simp
      | some w => exact hw1 w h r
    have := hinj (y - x) (fun i hi => by simp [hy.1 i hi, hx.1 i hi]) fun r s hrs =>
      (mnl_estimates_agree hM hc hw hw0 (by simp) hx hy (hpos s)).1 r hrs
    exact sub_eq_zero.1 this

end Ident

/-! ## The hypotheses can be met -/

/-- Two observations of two alternatives; the attribute is 1 for the first and 0 for the second
alternative; one chose the first and one the second. -/
noncomputable def exSplit (x : ℝ) : FitData (Fin 4) (Fin 2) (Fin 2) (Fin 1) (Fin 2) where
  design := Matrix.of fun r _ => (![x, 0, x, 0] : Fin 4 → ℝ) r
  altIDs := ![0, 1, 0, 1]
  rowsToObs := Matrix.of fun r o => if (![0, 0, 1, 1] : Fin 4 → Fin 2) r = o then 1 else 0
  rowsToAlts := Matrix.of fun r a => if (![0, 1, 0, 1] : Fin 4 → Fin 2) r = a then 1 else 0
  choice := ![1, 0, 0, 1]

theorem exSplit_obs (x : ℝ) : Indicates (exSplit x).rowsToObs ![0, 0, 1, 1] := fun _ _ => rfl

theorem exSplit_choice (x : ℝ) : OneChoice ![0, 0, 1, 1] (exSplit x).choice ![0, 3] where
  mem o := by fin_cases o <;> rfl
  one o := by fin_cases o <;> rfl
  zero r hr := by fin_cases r <;> simp_all [exSplit]

theorem exSplit_loglik (x : ℝ) {b : Fin 1 → ℝ} (hb : Unclipped (exSplit x).design b) :
    (mnlEstimator (exSplit x) none none none).logLik b =
      Real.log (Real.exp (x * b 0) / (Real.exp (x * b 0) + 1)) +
        Real.log (1 / (Real.exp (x * b 0) + 1)) := by
  rw [mnlEstimator_loglik (exSplit_obs x) (exSplit_choice x)]
  have r0 : rowsOf (![0, 0, 1, 1] : Fin 4 → Fin 2) 0 = {0, 1} := by decide
  have r1 : rowsOf (![0, 0, 1, 1] : Fin 4 → Fin 2) 1 = {2, 3} := by decide
  simp only [Option.getD_none, one_mul, zero_mul, sub_zero, Fin.sum_univ_two]
  rw [longProbs_eq_logitProb (exSplit_obs x) _ fun s _ => hb s,
    longProbs_eq_logitProb (exSplit_obs x) _ fun s _ => hb s]
  simp only [logitProb]
  change Real.log (_ / ∑ s ∈ rowsOf (![0, 0, 1, 1] : Fin 4 → Fin 2) 0, _) +
    Real.log (_ / ∑ s ∈ rowsOf (![0, 0, 1, 1] : Fin 4 → Fin 2) 1, _) = _
  rw [r0, r1]
  simp [exSplit, mulVec, dotProduct]

/-- Zero is the best coefficient. -/
theorem exSplit_best (x : ℝ) :
    BestUnclipped (mnlEstimator (exSplit x) none none none).logLik (exSplit x).design [] 0 0 := by
  have h0 : Unclipped (exSplit x).design 0 := fun r => by simp
  refine ⟨fun _ _ => rfl, h0, fun b _ hb => ?_⟩
  rw [exSplit_loglik x hb, exSplit_loglik x h0]
  have pe := Real.exp_pos (x * b 0)
  rw [← Real.log_mul (by positivity) (by positivity), ← Real.log_mul (by positivity) (by positivity)]
  refine Real.log_le_log (by positivity) ?_
  simp only [Pi.zero_apply, mul_zero, Real.exp_zero]
  rw [div_mul_div_comm, div_le_iff₀ (by positivity)]
  nlinarith [sq_nonneg (Real.exp (x * b 0) - 1)]

/-- An attribute that differs between the alternatives identifies its coefficient. -/
example (b : Fin 1 → ℝ)
    (hb : BestUnclipped (mnlEstimator (exSplit 1) none none none).logLik (exSplit 1).design [] 0 b) : b = 0 := by
  refine (mnl_identified_iff (con := none) (exSplit_obs 1) (exSplit_choice 1) (by simp [ObsWeights]) (by simp)
    (exSplit_best 1) (fun r => by simp)).2 (fun v _ hv => ?_) b hb
  have := hv 0 1 rfl
  funext k
  fin_cases k
  simpa [exSplit, mulVec, dotProduct] using this

/-- An attribute that does not differ leaves its coefficient undetermined. -/
example : ∃ b, b ≠ 0 ∧
    BestUnclipped (mnlEstimator (exSplit 0) none none none).logLik (exSplit 0).design [] 0 b := by
  by_contra h
  push Not at h
  have := (mnl_identified_iff (con := none) (exSplit_obs 0) (exSplit_choice 0) (by simp [ObsWeights]) (by simp)
    (exSplit_best 0) (fun r => by simp)).1 (fun b hb => by_contra fun hne => h b hne hb) (fun _ => 1)
    (by simp) (fun r s _ => by fin_cases r <;> fin_cases s <;> simp [exSplit, mulVec, dotProduct])
  simpa using congrFun this 0

/-- The penalty 1 and starting value 0 meet the condition of `mnl_ridge_one_estimate`. -/
example : ∃ x, (∀ y, IsBest (mnlEstimator (exSplit 1) (some 1) none none).logLik [] 0 y ↔ y = x) ∧
    ((mnlEstimator (exSplit 1) (some 1) none none).negLLAndGrad x).2 = 0 := by
  refine mnl_ridge_one_estimate (constrained := none) (exSplit_obs 1) (exSplit_choice 1) (by simp [ObsWeights])
    (by simp [NonnegWeights]) one_pos 0 fun r => ?_
  have h0 : Unclipped (exSplit 1).design 0 := fun r => by simp
  have hl : (mnlEstimator (exSplit 1) (some 1) none none).logLik 0 =
      (mnlEstimator (exSplit 1) none none none).logLik 0 := by
    rw [mnlEstimator_loglik (exSplit_obs 1) (exSplit_choice 1),
      mnlEstimator_loglik (exSplit_obs 1) (exSplit_choice 1)]
    simp
  have h2 : -2 ≤ (mnlEstimator (exSplit 1) none none none).logLik 0 := by
    rw [exSplit_loglik 1 h0]
    have := Real.log_two_lt_d9
    have e : Real.log (1 / 2) = -Real.log 2 := by rw [one_div, Real.log_inv]
    norm_num [e]
    linarith
  have hs : ∑ k, (exSplit 1).design r k ^ 2 ≤ 1 := by
    fin_cases r <;> simp [exSplit]
  have hs0 : 0 ≤ ∑ k, (exSplit 1).design r k ^ 2 := Finset.sum_nonneg fun k _ => sq_nonneg _
  rw [hl]
  nlinarith

theorem exSplit_alts (x : ℝ) : Indicates (exSplit x).rowsToAlts ![0, 1, 0, 1] := fun _ _ => rfl

/-- The asymmetric model on these data, the first shape held at its starting value. -/
example : RidgeAttained (asymEstimator 0 1 (exSplit 3) (some 2) none (some [.inl 0])).logLik [.inl 0] 2 :=
  asym_ridge_attained (exSplit_obs 3) (exSplit_alts 3) (exSplit_choice 3) (by simp [NonnegWeights]) two_pos
    one_pos 0 1 (some [.inl 0])

example : RidgeAttained (scobitEstimatorPlain 1 (exSplit 3) (some 2) none none).logLik [] 2 :=
  scobit_plain_ridge_attained (exSplit_obs 3) (exSplit_alts 3) (exSplit_choice 3) (by simp [NonnegWeights])
    two_pos 1 none

/-- Panel data with two individuals, individual weights and two draws. -/
example : RidgeAttained (mixedEstimator exMixX exMixB exMixC exMixChoice (some 2) (some exMixW) none).logLik [] 2 :=
  mixed_ridge_attained exMixB_indicates exMixC_indicates exMix_oneChoice exMixW_nonneg _ two_pos none

end Pylogit
