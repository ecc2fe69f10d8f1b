import Mathlib.LinearAlgebra.Matrix.NonsingularInverse
import Mathlib.LinearAlgebra.Matrix.ToLinearEquiv
import Verif.Spec.Choice

/-!
# When minus a sum of covariances is invertible
-/

open Finset Matrix

namespace Pylogit

open Spec

variable {R O P : Type} [Fintype R] [DecidableEq O] [Fintype P] [DecidableEq P]

/-- The mean of `w` over the rows of the observation of row `r`. -/
noncomputable def rowMean (f : R → O) (p w : R → ℝ) (r : R) : ℝ := ∑ s ∈ rowsOf f (f r), p s * w s

omit [Fintype P] [DecidableEq P] in
theorem rowMean_congr (f : R → O) (p w : R → ℝ) {r s : R} (h : f s = f r) : rowMean f p w s = rowMean f p w r := by
  rw [rowMean, rowMean, h]

/-- A sum over rows, observation by observation: deviations from the means cancel against anything that is constant
within observations. -/
theorem sum_deviation (f : R → O) {p : R → ℝ} (hp : ∀ r, ∑ s ∈ rowsOf f (f r), p s = 1) (w c : R → ℝ)
    (hc : ∀ r s, f r = f s → c r = c s) : ∑ r, p r * c r * (w r - rowMean f p w r) = 0 := by
  classical
  rw [← Finset.sum_fiberwise_of_maps_to (t := univ.image f) (g := f) (fun r _ => Finset.mem_image_of_mem _ (mem_univ r))]
  refine Finset.sum_eq_zero fun o ho => ?_
  obtain ⟨r, -, rfl⟩ := Finset.mem_image.1 ho
  have e : ∀ s ∈ univ.filter (fun s => f s = f r), p s * c s * (w s - rowMean f p w s) =
      c r * (p s * w s) - c r * rowMean f p w r * p s := by
    intro s hs
    have hs' : f s = f r := (Finset.mem_filter.1 hs).2
    rw [hc s r hs', rowMean_congr f p w hs']
    ring
  rw [Finset.sum_congr rfl e, Finset.sum_sub_distrib, ← Finset.mul_sum, ← Finset.mul_sum]
  have h1 : ∑ s with f s = f r, p s * w s = rowMean f p w r := rfl
  have h2 : ∑ s with f s = f r, p s = 1 := hp r
  rw [h1, h2]
  ring

/-- Minus a sum of covariances is invertible if and only if no combination of the variables is constant within all
observations. -/
theorem covariance_regular_iff (f : R → O) {p : R → ℝ} (hpos : ∀ r, 0 < p r)
    (hp : ∀ r, ∑ s ∈ rowsOf f (f r), p s = 1) (J : Matrix R P ℝ) {H : Matrix P P ℝ}
    (hH : ∀ i j, H i j = -∑ r, p r * J r i * (J r j - ∑ s ∈ rowsOf f (f r), p s * J s j)) :
    IsUnit H.det ↔ ∀ v, (∀ r s, f r = f s → (J *ᵥ v) r = (J *ᵥ v) s) → v = 0 := by
  have hmul : ∀ v i, (H *ᵥ v) i = -∑ r, p r * J r i * ((J *ᵥ v) r - rowMean f p (J *ᵥ v) r) := by
    intro v i
    simp only [mulVec, dotProduct, hH, neg_mul, Finset.sum_neg_distrib, Finset.sum_mul, rowMean, neg_inj]
    rw [Finset.sum_comm]
    refine Finset.sum_congr rfl fun r _ => ?_
    have : ∑ s ∈ rowsOf f (f r), p s * ∑ j, J s j * v j = ∑ j, (∑ s ∈ rowsOf f (f r), p s * J s j) * v j := by
      simp only [Finset.mul_sum, Finset.sum_mul]
      rw [Finset.sum_comm]
      exact Finset.sum_congr rfl fun j _ => Finset.sum_congr rfl fun s _ => by ring
    rw [this, ← Finset.sum_sub_distrib, Finset.mul_sum]
    exact Finset.sum_congr rfl fun j _ => by ring
  rw [isUnit_iff_ne_zero, ne_eq, ← Matrix.exists_mulVec_eq_zero_iff]
  push Not
  constructor
  · intro h v hv
    by_contra hne
    refine h v hne ?_
    funext i
    rw [hmul]
    have hdev : ∀ r, (J *ᵥ v) r - rowMean f p (J *ᵥ v) r = 0 := by
      intro r
      have : rowMean f p (J *ᵥ v) r = ∑ s ∈ rowsOf f (f r), p s * (J *ᵥ v) r := by
        refine Finset.sum_congr rfl fun s hs => ?_
        rw [hv s r (by simpa [rowsOf] using hs)]
      rw [this, ← Finset.sum_mul, hp, one_mul, sub_self]
    simp [hdev]
  · intro h v hv h0
    refine hv (h v fun r s hrs => ?_)
    set w := J *ᵥ v with hw
    have hq : ∑ r, p r * w r * (w r - rowMean f p w r) = 0 := by
      have h1 : v ⬝ᵥ (H *ᵥ v) = 0 := by rw [h0]; simp
      have h2 : v ⬝ᵥ (H *ᵥ v) = -∑ r, p r * w r * (w r - rowMean f p w r) := by
        simp only [dotProduct, hmul, mul_neg, Finset.sum_neg_distrib, Finset.mul_sum, neg_inj]
        rw [Finset.sum_comm]
        refine Finset.sum_congr rfl fun r _ => ?_
        have : w r = ∑ i, J r i * v i := rfl
        rw [show p r * w r * (w r - rowMean f p w r) = (∑ i, J r i * v i) * (p r * (w r - rowMean f p w r)) by
          rw [← this]; ring, Finset.sum_mul]
        exact Finset.sum_congr rfl fun i _ => by ring
      linarith
    have hsq : ∑ r, p r * (w r - rowMean f p w r) ^ 2 = 0 := by
      have h3 := sum_deviation f hp w (rowMean f p w) fun r s h => rowMean_congr f p w h
      rw [← sub_eq_zero_of_eq (hq.trans h3.symm), ← Finset.sum_sub_distrib]
      exact Finset.sum_congr rfl fun r _ => by ring
    have hz : ∀ r, w r = rowMean f p w r := by
      intro r
      have := (Finset.sum_eq_zero_iff_of_nonneg fun r _ => mul_nonneg (hpos r).le (sq_nonneg _)).1 hsq r (mem_univ r)
      rcases mul_eq_zero.1 this with h | h
      · exact absurd h (hpos r).ne'
      · exact sub_eq_zero.1 (pow_eq_zero_iff two_ne_zero |>.1 h)
    rw [hz r, hz s, rowMean_congr f p w hrs]

end Pylogit
