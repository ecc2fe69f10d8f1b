import Verif.Lemmas.LogLik
import Verif.Spec.Derivs

/-! # Helper lemmas: the gradient is the derivative, generically -/

set_option linter.unusedSectionVars false

open Finset Matrix Function

namespace Pylogit

open Spec

variable {R O A K S I ι : Type} [Fintype R] [DecidableEq R] [Fintype O] [DecidableEq O]
  [Fintype K] [DecidableEq K] [Fintype S] [DecidableEq S] [Fintype I] [DecidableEq I]

theorem sum_sq_hasDerivAt {P : Type} [Fintype P] [DecidableEq P] (θ : P → ℝ) (i : P) :
    HasDerivAt (fun t => ∑ j, update θ i t j ^ 2) (2 * θ i) (θ i) := by
  have h : ∀ j ∈ (Finset.univ : Finset P),
      HasDerivAt (fun t => update θ i t j ^ 2) (if j = i then 2 * θ i else 0) (θ i) := by
    intro j _
    by_cases hj : j = i
    · subst hj
      simpa using hasDerivAt_pow 2 (θ j)
    · simpa [hj] using hasDerivAt_const (θ i) (θ j ^ 2)
  simpa using HasDerivAt.fun_sum h

/-- Derivative of the penalised log-likelihood kernel along coordinate directions. -/
theorem core_partials {P : Type} [Fintype P] [DecidableEq P] {M : Matrix R O ℝ} {f : R → O}
    (hM : Indicates M f) {choice w : R → ℝ} {c : O → R} (hc : OneChoice f choice c)
    (hw : ∀ r s, f r = f s → w r = w s) {h : (P → ℝ) → R → ℝ} {J : Matrix R P ℝ} {θ : P → ℝ}
    (hJ : HasJacobian h J θ) (hb : ∀ r, |h θ r| < 700) (ρ : ℝ) :
    HasPartials (fun θ => ∑ r, choice r * (w r * Real.log (longProbs M (h θ) r)) - ρ * ∑ j, θ j ^ 2)
      (fun i => ((fun r => w r * (choice r - longProbs M (h θ) r)) ᵥ* J) i - 2 * ρ * θ i) θ := by
  intro i
  have h1 := ll_hasDerivAt hM hc hw (h := fun t => h (update θ i t)) (h' := fun r => J r i)
    (t := θ i) (fun r => hJ r i) (by simpa using hb)
  have h2 := (sum_sq_hasDerivAt θ i).const_mul ρ
  refine (h1.sub h2).congr_deriv ?_
  simp [vecMul, dotProduct]
  ring

/-- A correct `dhdv` of a row-wise transformation vanishes off the diagonal. -/
theorem dhdv_offdiag {T : Transform R A S I ι} {d : Derivs R S I} {v : R → ℝ} {ids : R → ι}
    {rta : Matrix R A ℝ} {shape : Option (S → ℝ)} {icpt : Option (I → ℝ)}
    (hT : Rowwise T ids rta shape icpt) (hd : DerivsCorrect T d v ids rta shape icpt)
    {r q : R} (h : q ≠ r) : d.dhdv r q = 0 := by
  have h1 := hd.dv r q
  have h2 : HasDerivAt (fun t => T (update v q t) ids rta shape icpt r) 0 (v q) := by
    have e : (fun t => T (update v q t) ids rta shape icpt r) =
        fun _ => T v ids rta shape icpt r := by
      funext t; exact hT r _ _ (by simp [h.symm])
    rw [e]; exact hasDerivAt_const _ _
  exact h1.unique h2

/-- Chain rule through the systematic utilities. -/
theorem beta_partials {T : Transform R A S I ι} {d : Derivs R S I} {ids : R → ι}
    {rta : Matrix R A ℝ} {shape : Option (S → ℝ)} {icpt : Option (I → ℝ)} {X : Matrix R K ℝ}
    {β : K → ℝ} (hT : Rowwise T ids rta shape icpt)
    (hd : DerivsCorrect T d (X *ᵥ β) ids rta shape icpt) :
    HasJacobian (fun β => T (X *ᵥ β) ids rta shape icpt) (d.dhdv * X) β := by
  intro r k
  have hlin : ∀ t, (X *ᵥ update β k t) r = (X *ᵥ β) r + (t - β k) * X r k := by
    intro t
    simp only [mulVec, dotProduct]
    rw [← sub_eq_iff_eq_add', ← Finset.sum_sub_distrib, Finset.sum_eq_single k]
    · simp; ring
    · intro j _ hj; simp [hj]
    · simp
  have e : (fun t => T (X *ᵥ update β k t) ids rta shape icpt r) =
      fun t => T (update (X *ᵥ β) r ((X *ᵥ β) r + (t - β k) * X r k)) ids rta shape icpt r := by
    funext t; exact hT r _ _ (by simp [hlin])
  show HasDerivAt (fun t => T (X *ᵥ update β k t) ids rta shape icpt r) _ _
  rw [e]
  have h1 := hd.dv r r
  have h2 : HasDerivAt (fun t => (X *ᵥ β) r + (t - β k) * X r k) (X r k) (β k) := by
    simpa using (((hasDerivAt_id (β k)).sub_const (β k)).mul_const (X r k)).const_add ((X *ᵥ β) r)
  have h3 := HasDerivAt.comp (h₂ := fun u => T (update (X *ᵥ β) r u) ids rta shape icpt r) (β k)
    (h₂' := d.dhdv r r) (by simpa using h1) h2
  refine HasDerivAt.congr_deriv h3 ?_
  rw [Matrix.mul_apply, Finset.sum_eq_single r]
  · intro q _ hq; rw [dhdv_offdiag hT hd hq, zero_mul]
  · simp

end Pylogit
