import Verif.Lemmas.Gradient

/-! # Helper lemmas: the quadratic form of the Hessian blocks -/

set_option linter.unusedSectionVars false

open Finset Matrix Function

namespace Pylogit

open Spec

variable {R O A K S I ι P Q : Type} [Fintype R] [DecidableEq R] [Fintype O] [DecidableEq O]

theorem sum_fiber (f : R → O) (g : R → ℝ) : ∑ r, g r = ∑ o, ∑ r ∈ rowsOf f o, g r := by
  rw [← Finset.sum_fiberwise_of_maps_to (t := Finset.univ) (g := f) (fun r _ => Finset.mem_univ _)]
  rfl

theorem sum_indicates {M : Matrix R O ℝ} {f : R → O} (hM : Indicates M f) (g : R → ℝ) (o : O) :
    ∑ r, g r * M r o = ∑ r ∈ rowsOf f o, g r := by
  simp only [hM _ o, mul_ite, mul_one, mul_zero, rowsOf, Finset.sum_filter]

/-- Entry of a Hessian block as a sum over observations. -/
theorem negQuad_apply {M : Matrix R O ℝ} {f : R → O} (hM : Indicates M f) (a : Matrix R P ℝ)
    (b : Matrix R Q ℝ) (p : R → ℝ) (w : Option (R → ℝ)) (i : P) (j : Q) :
    negQuad a b p M w i j = -∑ o, (∑ r ∈ rowsOf f o, defaultWeights w r * p r * a r i * b r j -
      (∑ r ∈ rowsOf f o, defaultWeights w r * p r * a r i) * ∑ r ∈ rowsOf f o, p r * b r j) := by
  have e : negQuad a b p M w i j = -1 • (∑ r, (a r i * (defaultWeights w r * p r)) * b r j -
      ∑ o, (∑ r, a r i * (M r o * (defaultWeights w r * p r))) * ∑ r, (M r o * p r) * b r j) := rfl
  rw [e, sum_fiber f, ← Finset.sum_sub_distrib, neg_smul, one_smul]
  congr 1
  refine Finset.sum_congr rfl fun o _ => ?_
  congr 1
  · exact Finset.sum_congr rfl fun r _ => by ring
  · congr 1
    · rw [← sum_indicates hM]; exact Finset.sum_congr rfl fun r _ => by ring
    · rw [← sum_indicates hM]; exact Finset.sum_congr rfl fun r _ => by ring

theorem negQuad_transpose {M : Matrix R O ℝ} {f : R → O} (hM : Indicates M f) (a : Matrix R P ℝ)
    (b : Matrix R Q ℝ) (p : R → ℝ) {w : Option (R → ℝ)}
    (hw : ∀ r s, f r = f s → defaultWeights w r = defaultWeights w s) :
    (negQuad a b p M w)ᵀ = negQuad b a p M w := by
  ext j i
  rw [Matrix.transpose_apply, negQuad_apply hM, negQuad_apply hM]
  congr 1
  refine Finset.sum_congr rfl fun o _ => ?_
  congr 1
  · exact Finset.sum_congr rfl fun r _ => by ring
  · rcases (rowsOf f o).eq_empty_or_nonempty with h | ⟨q, hq⟩
    · simp [h]
    · have e : ∀ g : R → ℝ, ∑ r ∈ rowsOf f o, defaultWeights w r * p r * g r =
          defaultWeights w q * ∑ r ∈ rowsOf f o, p r * g r := by
        intro g
        rw [Finset.mul_sum]
        refine Finset.sum_congr rfl fun r hr => ?_
        rw [hw r q ((mem_rowsOf.1 hr).trans (mem_rowsOf.1 hq).symm)]; ring
      rw [e fun r => a r i, e fun r => b r j]; ring

/-- The quadratic form of a diagonal Hessian block. -/
theorem negQuad_form [Fintype P] {M : Matrix R O ℝ} {f : R → O} (hM : Indicates M f)
    (a : Matrix R P ℝ) (p : R → ℝ) (w : Option (R → ℝ)) (x : P → ℝ) :
    x ⬝ᵥ (negQuad a a p M w *ᵥ x) =
      -∑ o, (∑ r ∈ rowsOf f o, defaultWeights w r * p r * (a *ᵥ x) r ^ 2 -
      (∑ r ∈ rowsOf f o, defaultWeights w r * p r * (a *ᵥ x) r) *
        ∑ r ∈ rowsOf f o, p r * (a *ᵥ x) r) := by
  have e : negQuad (a * replicateCol Unit x) (a * replicateCol Unit x) p M w =
      (replicateCol Unit x)ᵀ * (negQuad a a p M w * replicateCol Unit x) := by
    simp only [negQuad, quadraticProd]
    rw [Matrix.smul_mul, Matrix.mul_smul, Matrix.sub_mul, Matrix.mul_sub]
    congr 2
    · have e1 : ∀ (L1 : Matrix Unit R ℝ) (L2 : Matrix P R ℝ), L1 = (replicateCol Unit x)ᵀ * L2 →
          L1 * (a * replicateCol Unit x) = (replicateCol Unit x)ᵀ * (L2 * a * replicateCol Unit x) := by
        rintro L1 L2 rfl; simp only [Matrix.mul_assoc]
      refine e1 _ _ (Matrix.ext fun i r => ?_)
      show (a * replicateCol Unit x)ᵀ i r * _ = ∑ j, (replicateCol Unit x)ᵀ i j * (aᵀ j r * _)
      rw [Matrix.transpose_mul, Matrix.mul_apply, Finset.sum_mul]
      exact Finset.sum_congr rfl fun _ _ => by ring
    · simp only [Matrix.transpose_mul, Matrix.mul_assoc]
  have h1 : x ⬝ᵥ (negQuad a a p M w *ᵥ x) =
      negQuad (replicateCol Unit (a *ᵥ x)) (replicateCol Unit (a *ᵥ x)) p M w () () := by
    rw [Matrix.replicateCol_mulVec, e, ← Matrix.replicateCol_mulVec, Matrix.transpose_replicateCol,
      Matrix.mul_apply]
    rfl
  rw [h1, negQuad_apply hM]
  congr 1
  refine Finset.sum_congr rfl fun o _ => ?_
  congr 1
  exact Finset.sum_congr rfl fun r _ => by simp only [replicateCol_apply]; ring

/-- Weighted variances are non-negative. -/
theorem variance_nonneg (s : Finset R) (p x : R → ℝ) (hp : ∀ r ∈ s, 0 ≤ p r)
    (h1 : ∑ r ∈ s, p r ≤ 1) :
    (∑ r ∈ s, p r * x r) * (∑ r ∈ s, p r * x r) ≤ ∑ r ∈ s, p r * x r ^ 2 := by
  have cs := Finset.sum_mul_sq_le_sq_mul_sq s (fun r => Real.sqrt (p r)) (fun r => Real.sqrt (p r) * x r)
  have e1 : ∑ r ∈ s, Real.sqrt (p r) * (Real.sqrt (p r) * x r) = ∑ r ∈ s, p r * x r :=
    Finset.sum_congr rfl fun r hr => by rw [← mul_assoc, Real.mul_self_sqrt (hp r hr)]
  have e2 : ∑ r ∈ s, Real.sqrt (p r) ^ 2 = ∑ r ∈ s, p r :=
    Finset.sum_congr rfl fun r hr => Real.sq_sqrt (hp r hr)
  have e3 : ∑ r ∈ s, (Real.sqrt (p r) * x r) ^ 2 = ∑ r ∈ s, p r * x r ^ 2 :=
    Finset.sum_congr rfl fun r hr => by rw [mul_pow, Real.sq_sqrt (hp r hr)]
  rw [e1, e2, e3] at cs
  have h0 : 0 ≤ ∑ r ∈ s, p r * x r ^ 2 :=
    Finset.sum_nonneg fun r hr => mul_nonneg (hp r hr) (sq_nonneg _)
  nlinarith

/-- A diagonal Hessian block is negative semidefinite. -/
theorem negQuad_nonpos [Fintype P] {M : Matrix R O ℝ} {f : R → O} (hM : Indicates M f)
    (a : Matrix R P ℝ) {p : R → ℝ} {w : Option (R → ℝ)} (hp : ∀ r, 0 ≤ p r)
    (hp1 : ∀ o, ∑ r ∈ rowsOf f o, p r ≤ 1)
    (hw : ∀ r s, f r = f s → defaultWeights w r = defaultWeights w s)
    (hw0 : ∀ r, 0 ≤ defaultWeights w r) (x : P → ℝ) :
    x ⬝ᵥ (negQuad a a p M w *ᵥ x) ≤ 0 := by
  rw [negQuad_form hM, neg_nonpos]
  refine Finset.sum_nonneg fun o _ => ?_
  rcases (rowsOf f o).eq_empty_or_nonempty with h | ⟨q, hq⟩
  · simp [h]
  · have e : ∀ g : R → ℝ, ∑ r ∈ rowsOf f o, defaultWeights w r * p r * g r =
        defaultWeights w q * ∑ r ∈ rowsOf f o, p r * g r := by
      intro g
      rw [Finset.mul_sum]
      refine Finset.sum_congr rfl fun r hr => ?_
      rw [hw r q ((mem_rowsOf.1 hr).trans (mem_rowsOf.1 hq).symm)]; ring
    rw [e fun r => (a *ᵥ x) r ^ 2, e fun r => (a *ᵥ x) r]
    have := variance_nonneg (rowsOf f o) p (a *ᵥ x) (fun r _ => hp r) (hp1 o)
    have := mul_nonneg (hw0 q) (sub_nonneg.2 this)
    linarith

theorem ridgeMat_form [Fintype P] [DecidableEq P] (ridge : Option ℝ) (H : Matrix P P ℝ) (x : P → ℝ) :
    x ⬝ᵥ (ridgeMat ridge H *ᵥ x) = x ⬝ᵥ (H *ᵥ x) - 2 * ridge.getD 0 * (x ⬝ᵥ x) := by
  cases ridge with
  | none => simp [ridgeMat]
  | some c => simp [ridgeMat, Matrix.sub_mulVec, Matrix.smul_mulVec, mul_assoc]

theorem ridgeMat_transpose [DecidableEq P] (ridge : Option ℝ) (H : Matrix P P ℝ) :
    (ridgeMat ridge H)ᵀ = ridgeMat ridge Hᵀ := by
  cases ridge with
  | none => simp [ridgeMat]
  | some c => simp [ridgeMat, Matrix.transpose_sub]

theorem longProbs_sum_le {M : Matrix R O ℝ} {f : R → O} (hM : Indicates M f) (h : R → ℝ) (o : O) :
    ∑ r ∈ rowsOf f o, longProbs M h r ≤ 1 := by
  rcases (rowsOf f o).eq_empty_or_nonempty with e | ⟨q, hq⟩
  · simp [e]
  · have := longProbs_sum hM h q
    rw [mem_rowsOf.1 hq] at this
    exact this.le

end Pylogit
