import Verif.Props.Existence
import Verif.Props.Mixed
import Verif.Lemmas.ClipClosed

/-!
# C120: what the multinomial logit maximises always has a maximum
-/

set_option linter.unusedSectionVars false

open Finset Matrix Function

namespace Pylogit

open Spec

variable {R O A K ι : Type} [Fintype R] [DecidableEq R] [Fintype O] [DecidableEq O] [Fintype K] [DecidableEq K]

theorem clip700_twice (t : ℝ) : clip700 (clip700 t) = clip700 t := by
  have h1 : -700 ≤ clip700 t := le_max_left _ _
  have h2 : clip700 t ≤ 700 := max_le (by norm_num) (min_le_right _ _)
  rw [clip700, min_eq_left h2, max_eq_right h1]

/-- **C120** (always attained). With a ridge penalty that is not negative, or none, and weights that are not, the
log-likelihood of a multinomial logit as the library computes it, with clipped utilities, has a maximum whatever the
data are and whatever coefficients are held fixed - also where the textbook log-likelihood has none. -/
theorem mnl_attained {d : FitData R O A K ι} {f : R → O} (hM : Indicates d.rowsToObs f) (hc : ∀ r, 0 ≤ d.choice r)
    {weights : Option (R → ℝ)} (hw : NonnegWeights weights) {ridge : Option ℝ} (hr : 0 ≤ ridge.getD 0)
    (constrained : Option (List K)) (fixed : List K) (x₀ : K → ℝ) :
    ∃ x, IsBest (mnlEstimator d ridge weights constrained).logLik fixed x₀ x := by
  rcases hr.eq_or_lt with h0 | h0
  · -- no penalty: a function of the clipped utilities
    have e : ∀ x, (mnlEstimator d ridge weights constrained).logLik x = ∑ r, d.choice r *
        (defaultWeights (estWeights weights) r * Real.log (longProbs d.rowsToObs (d.design *ᵥ x) r)) := by
      intro x
      simp only [mnlEstimator, estimatorNone, calcLogLikelihood, modelProbs, mnlTransform]
      cases ridge with
      | none => rfl
      | some ρ => simp [show ρ = 0 from h0.symm]
    let G : (R → ℝ) → ℝ := fun u => ∑ r, d.choice r *
      (defaultWeights (estWeights weights) r * Real.log (longProbs d.rowsToObs u r))
    have hG : Continuous G := continuous_loglik_sum hM (fun r => continuous_apply r) _ _
    have hclip : ∀ u, G (fun r => clip700 (u r)) = G u := by
      intro u
      simp only [G, longProbs_eq_clippedLogit hM, clippedLogit, clip700_twice]
    let V : Submodule ℝ (K → ℝ) :=
      { carrier := {δ | ∀ i ∈ fixed, δ i = 0}
        add_mem' := fun {x y} hx hy i hi => by rw [Pi.add_apply, hx i hi, hy i hi, add_zero]
        zero_mem' := fun i _ => rfl
        smul_mem' := fun c x hx i hi => by rw [Pi.smul_apply, hx i hi, smul_zero] }
    obtain ⟨w, ⟨δ, hδ, hw'⟩, hmax⟩ := Clip.attained hG (V.map d.design.mulVecLin) (d.design *ᵥ x₀)
    refine ⟨x₀ + δ, fun i hi => by rw [Pi.add_apply, hδ i hi, add_zero], fun y hy => ?_⟩
    have hx : w = d.design *ᵥ (x₀ + δ) := by
      rw [Matrix.mulVec_add, ← Matrix.mulVecLin_apply d.design δ, hw']
      abel
    have := hmax (d.design *ᵥ y) ⟨y - x₀, fun i hi => by rw [Pi.sub_apply, hy i hi, sub_self], by
      rw [Matrix.mulVecLin_apply, Matrix.mulVec_sub]⟩
    rw [hclip, hclip, hx] at this
    rw [e, e]
    exact this
  · cases ridge with
    | none => simp at h0
    | some ρ =>
      have h := ridgeAttained_of_continuous (F := (mnlEstimator d (some ρ) weights constrained).logLik) (ρ := ρ) ?_ h0
        (fun x => ?_) fixed x₀
      · exact h.1
      · simp only [mnlEstimator, estimatorNone, calcLogLikelihood, modelProbs, sumSqOpt, mnlTransform]
        refine (continuous_loglik_sum hM (fun r => continuous_mulVec_of d.design (fun k => continuous_apply k) r) _ _).sub ?_
        fun_prop
      · simp only [mnlEstimator, estimatorNone, calcLogLikelihood, modelProbs, sumSqOpt, mnlTransform, zero_add]
        linarith [loglik_sum_nonpos hM hc (estWeights_nonneg hw) (d.design *ᵥ x)]

end Pylogit
