import Verif.Props.Definiteness

/-!
# C27: concavity of the MNL log-likelihood
-/

set_option linter.unusedSectionVars false

open Finset Matrix Function

namespace Pylogit

open Spec

variable {R O A K ι : Type} [Fintype R] [DecidableEq R] [Fintype O] [DecidableEq O]
  [Fintype K] [DecidableEq K]

theorem score_sum {f : R → O} {choice w p d : R → ℝ} {c : O → R} (hc : OneChoice f choice c)
    (hw : ∀ r s, f r = f s → w r = w s) :
    ∑ r, choice r * (w r * (d r - ∑ s ∈ rowsOf f (f r), p s * d s)) =
      ∑ r, w r * (choice r - p r) * d r := by
  have e1 : ∑ r, choice r * (w r * (d r - ∑ s ∈ rowsOf f (f r), p s * d s)) =
      ∑ r, choice r * w r * d r -
        ∑ r, ∑ s ∈ rowsOf f (f r), choice r * w r * (p s * d s) := by
    rw [← Finset.sum_sub_distrib]
    refine Finset.sum_congr rfl fun r _ => ?_
    rw [← Finset.mul_sum]; ring
  rw [e1, sum_rowsOf_comm, ← Finset.sum_sub_distrib]
  refine Finset.sum_congr rfl fun s _ => ?_
  rw [← Finset.sum_mul, sum_choice_weights hc hw s]
  ring

/-- Tangent inequality for one row. -/
theorem log_logit_tangent {M : Matrix R O ℝ} {f : R → O} (hM : Indicates M f) {u v : R → ℝ}
    (hu : ∀ r, |u r| ≤ 700) (hv : ∀ r, |v r| ≤ 700) (r : R) :
    Real.log (longProbs M v r) ≤ Real.log (longProbs M u r) +
      ((v r - u r) - ∑ s ∈ rowsOf f (f r), longProbs M u s * (v s - u s)) := by
  rw [log_longProbs hM, log_longProbs hM, clip_eq (hu r), clip_eq (hv r)]
  set D := ∑ s ∈ rowsOf f (f r), longProbs M u s * (v s - u s) with hD
  have pu := denom_pos f u r
  have pv := denom_pos f v r
  have key : (∑ s ∈ rowsOf f (f r), longExponentials u s) * Real.exp D ≤
      ∑ s ∈ rowsOf f (f r), longExponentials v s := by
    have h1 : ∀ s ∈ rowsOf f (f r), longProbs M u s * (1 + ((v s - u s) - D)) ≤
        longProbs M u s * Real.exp ((v s - u s) - D) := fun s _ =>
      mul_le_mul_of_nonneg_left (by linarith [Real.add_one_le_exp ((v s - u s) - D)])
        (longProbs_pos hM u s).le
    have h2 := Finset.sum_le_sum h1
    have h3 : ∑ s ∈ rowsOf f (f r), longProbs M u s * (1 + ((v s - u s) - D)) = 1 := by
      have : ∀ s ∈ rowsOf f (f r), longProbs M u s * (1 + ((v s - u s) - D)) =
          (1 - D) * longProbs M u s + longProbs M u s * (v s - u s) := fun s _ => by ring
      rw [Finset.sum_congr rfl this, Finset.sum_add_distrib, ← Finset.mul_sum, longProbs_sum hM]
      rw [← hD]; ring
    have h4 : ∀ s ∈ rowsOf f (f r), longProbs M u s * Real.exp ((v s - u s) - D) =
        longExponentials v s / ((∑ t ∈ rowsOf f (f r), longExponentials u t) * Real.exp D) := by
      intro s hs
      rw [longProbs_eq hM, mem_rowsOf.1 hs, longExponentials, longExponentials, clip_eq (hu s),
        clip_eq (hv s), div_mul_eq_mul_div, ← Real.exp_add, div_mul_eq_div_div,
        div_eq_div_iff pu.ne' (by positivity)]
      have : Real.exp (u s + (v s - u s - D)) = Real.exp (v s) / Real.exp D := by
        rw [← Real.exp_sub]; congr 1; ring
      rw [this]; field_simp
    rw [h3, Finset.sum_congr rfl h4, ← Finset.sum_div, le_div_iff₀ (by positivity), one_mul] at h2
    exact h2
  have hlog := Real.log_le_log (by positivity) key
  rw [Real.log_mul pu.ne' (Real.exp_pos _).ne', Real.log_exp] at hlog
  linarith

/-- **C27** (tangent inequality). The MNL log-likelihood lies below each of its tangent planes, with
the strict quadratic gap of the ridge penalty. -/
theorem mnl_below_tangent {M : Matrix R O ℝ} {f : R → O} (hM : Indicates M f) {choice : R → ℝ}
    {c : O → R} (hc : OneChoice f choice c) {weights : Option (R → ℝ)} (hw : ObsWeights f weights)
    (hw0 : NonnegWeights weights) (X : Matrix R K ℝ) (ids : R → ι) (rta : Matrix R A ℝ)
    (ridge : Option ℝ) (β γ : K → ℝ) (hβ : ∀ r, |(X *ᵥ β) r| ≤ 700) (hγ : ∀ r, |(X *ᵥ γ) r| ≤ 700) :
    calcLogLikelihood (S := Empty) (I := Empty) γ X ids M rta choice mnlTransform none none ridge weights
      ≤ calcLogLikelihood (S := Empty) (I := Empty) β X ids M rta choice mnlTransform none none ridge
          weights
        + gradientNone (S := Empty) (I := Empty) mnlDerivs X choice
            (modelProbs (S := Empty) (I := Empty) β X ids M rta mnlTransform none none) weights ridge β
            ⬝ᵥ (γ - β)
        - ridge.getD 0 * ∑ k, (γ k - β k) ^ 2 := by
  have hcho : ∀ r, 0 ≤ choice r := by
    intro r
    by_cases h : r = c (f r)
    · rw [h, hc.one]; exact zero_le_one
    · rw [hc.zero r h]
  have h1 : ∀ r ∈ (univ : Finset R), choice r * (defaultWeights weights r *
        Real.log (longProbs M (X *ᵥ γ) r)) ≤
      choice r * (defaultWeights weights r * Real.log (longProbs M (X *ᵥ β) r)) +
      choice r * (defaultWeights weights r * (((X *ᵥ γ) r - (X *ᵥ β) r) -
        ∑ s ∈ rowsOf f (f r), longProbs M (X *ᵥ β) s * ((X *ᵥ γ) s - (X *ᵥ β) s))) := by
    intro r _
    rw [← mul_add, ← mul_add]
    exact mul_le_mul_of_nonneg_left (mul_le_mul_of_nonneg_left (log_logit_tangent hM hβ hγ r)
      (nonnegWeights_default hw0 r)) (hcho r)
  have h2 := Finset.sum_le_sum h1
  rw [Finset.sum_add_distrib, score_sum (p := longProbs M (X *ᵥ β))
    (d := fun r => (X *ᵥ γ) r - (X *ᵥ β) r) hc (obsWeights_default hw)] at h2
  have h3 : gradientNone (S := Empty) (I := Empty) mnlDerivs X choice (longProbs M (X *ᵥ β)) weights
      ridge β ⬝ᵥ (γ - β) = ∑ r, defaultWeights weights r * (choice r - longProbs M (X *ᵥ β) r) *
        ((X *ᵥ γ) r - (X *ᵥ β) r) - 2 * ridge.getD 0 * ∑ k, β k * (γ k - β k) := by
    have : gradientNone (S := Empty) (I := Empty) mnlDerivs X choice (longProbs M (X *ᵥ β)) weights
        ridge β = (dLLdh weights choice (longProbs M (X *ᵥ β)) ᵥ* X) - (2 * ridge.getD 0) • β := by
      funext k
      simp [gradientNone, ridgeGrad_eq, mnlDerivs]
    rw [this, sub_dotProduct, ← Matrix.dotProduct_mulVec, Matrix.mulVec_sub, smul_dotProduct]
    simp only [dotProduct, dLLdh, Pi.sub_apply, smul_eq_mul]
  simp only [calcLogLikelihood, modelProbs, mnlTransform]
  rw [h3]
  cases ridge with
  | none => simp only [Option.getD_none]; linarith
  | some ρ =>
    simp only [Option.getD_some, sumSqOpt]
    have e : ρ * ∑ k, γ k ^ 2 = ρ * ∑ k, β k ^ 2 + 2 * ρ * ∑ k, β k * (γ k - β k) +
        ρ * ∑ k, (γ k - β k) ^ 2 := by
      rw [Finset.mul_sum, Finset.mul_sum, Finset.mul_sum, Finset.mul_sum, ← Finset.sum_add_distrib,
        ← Finset.sum_add_distrib]
      exact Finset.sum_congr rfl fun k _ => by ring
    nlinarith

/-- **C27**. If the gradient vanishes at `β`, no coefficient vector has a larger log-likelihood. -/
theorem mnl_stationary_is_maximum {M : Matrix R O ℝ} {f : R → O} (hM : Indicates M f)
    {choice : R → ℝ} {c : O → R} (hc : OneChoice f choice c) {weights : Option (R → ℝ)}
    (hw : ObsWeights f weights) (hw0 : NonnegWeights weights) (X : Matrix R K ℝ) (ids : R → ι)
    (rta : Matrix R A ℝ) {ridge : Option ℝ} (hρ : ∀ ρ, ridge = some ρ → 0 ≤ ρ) (β : K → ℝ)
    (hβ : ∀ r, |(X *ᵥ β) r| ≤ 700)
    (hgrad : gradientNone (S := Empty) (I := Empty) mnlDerivs X choice
      (modelProbs (S := Empty) (I := Empty) β X ids M rta mnlTransform none none) weights ridge β = 0)
    (γ : K → ℝ) (hγ : ∀ r, |(X *ᵥ γ) r| ≤ 700) :
    calcLogLikelihood (S := Empty) (I := Empty) γ X ids M rta choice mnlTransform none none ridge weights
      ≤ calcLogLikelihood (S := Empty) (I := Empty) β X ids M rta choice mnlTransform none none ridge
          weights := by
  have h := mnl_below_tangent hM hc hw hw0 X ids rta ridge β γ hβ hγ
  rw [hgrad, zero_dotProduct] at h
  have := mul_nonneg (ridge_getD_nonneg hρ)
    (Finset.sum_nonneg fun k (_ : k ∈ univ) => sq_nonneg (γ k - β k))
  linarith

/-- **C27** (uniqueness). With a positive ridge penalty a stationary point is the only maximiser. -/
theorem mnl_ridge_unique_maximum {M : Matrix R O ℝ} {f : R → O} (hM : Indicates M f)
    {choice : R → ℝ} {c : O → R} (hc : OneChoice f choice c) {weights : Option (R → ℝ)}
    (hw : ObsWeights f weights) (hw0 : NonnegWeights weights) (X : Matrix R K ℝ) (ids : R → ι)
    (rta : Matrix R A ℝ) {ρ : ℝ} (hρ : 0 < ρ) (β : K → ℝ) (hβ : ∀ r, |(X *ᵥ β) r| ≤ 700)
    (hgrad : gradientNone (S := Empty) (I := Empty) mnlDerivs X choice
      (modelProbs (S := Empty) (I := Empty) β X ids M rta mnlTransform none none) weights (some ρ) β = 0)
    (γ : K → ℝ) (hγ : ∀ r, |(X *ᵥ γ) r| ≤ 700) (hne : γ ≠ β) :
    calcLogLikelihood (S := Empty) (I := Empty) γ X ids M rta choice mnlTransform none none (some ρ)
        weights
      < calcLogLikelihood (S := Empty) (I := Empty) β X ids M rta choice mnlTransform none none (some ρ)
          weights := by
  have h := mnl_below_tangent hM hc hw hw0 X ids rta (some ρ) β γ hβ hγ
  rw [hgrad, zero_dotProduct] at h
  obtain ⟨k, hk⟩ := Function.ne_iff.1 hne
  have h1 : 0 < ∑ k, (γ k - β k) ^ 2 :=
    Finset.sum_pos' (fun k _ => sq_nonneg _) ⟨k, mem_univ _, by positivity [sub_ne_zero.2 hk]⟩
  have := mul_pos hρ h1
  simp only [Option.getD_some] at h
  linarith

/-- Non-vacuity: a data set (one observation, two identical rows) where zero is stationary. -/
example (γ : Fin 1 → ℝ) (hγ : ∀ r, |((!![1; 1] : Matrix (Fin 2) (Fin 1) ℝ) *ᵥ γ) r| ≤ 700) :
    calcLogLikelihood (S := Empty) (I := Empty) γ (!![1; 1] : Matrix (Fin 2) (Fin 1) ℝ) (fun r => r)
        (fun _ (_ : Fin 1) => 1) exRta ![1, 0] mnlTransform none none (some 1) none
      ≤ calcLogLikelihood (S := Empty) (I := Empty) (fun _ => 0) (!![1; 1] : Matrix (Fin 2) (Fin 1) ℝ)
        (fun r => r) (fun _ (_ : Fin 1) => 1) exRta ![1, 0] mnlTransform none none (some 1) none := by
  have hM : Indicates (fun (_ : Fin 2) (_ : Fin 1) => (1 : ℝ)) (fun _ => 0) := by
    intro r o; fin_cases o; simp
  refine mnl_stationary_is_maximum hM (c := fun _ => 0) ⟨by simp, by simp, ?_⟩ (by simp [ObsWeights])
    (by simp [NonnegWeights]) _ _ _ (by rintro ρ h; cases h; norm_num) _
    (by intro r; simp [mulVec, dotProduct]) ?_ γ hγ
  · intro r; fin_cases r <;> simp
  · have hs := longProbs_sum hM ((!![1; 1] : Matrix (Fin 2) (Fin 1) ℝ) *ᵥ fun _ => 0) 0
    simp [rowsOf] at hs
    funext k
    simp [gradientNone, ridgeGrad, mnlDerivs, vecMul, dotProduct, dLLdh, defaultWeights,
      modelProbs, mnlTransform]
    linarith

end Pylogit
