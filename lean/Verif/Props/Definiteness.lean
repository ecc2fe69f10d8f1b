import Verif.Props.Hessian
import Mathlib.LinearAlgebra.Matrix.Notation
import Mathlib.LinearAlgebra.Matrix.ToLinearEquiv

/-!
# C26, C28, C29: symmetry and definiteness of the Hessian, the Fisher information and the robust
covariance
-/

set_option linter.unusedSectionVars false

open Finset Matrix Function

namespace Pylogit

open Spec

variable {R O A K S I ι P : Type} [Fintype R] [DecidableEq R] [Fintype O] [DecidableEq O]
  [Fintype K] [DecidableEq K] [Fintype S] [DecidableEq S] [Fintype I] [DecidableEq I]
  [Fintype P] [DecidableEq P]

/-- Symmetric and negative semidefinite. -/
def Spec.SymmNSD (H : Matrix P P ℝ) : Prop := Hᵀ = H ∧ ∀ x : P → ℝ, x ⬝ᵥ (H *ᵥ x) ≤ 0

/-- Symmetric, with quadratic form at most `-c` times the squared length. -/
def Spec.SymmBelow (c : ℝ) (H : Matrix P P ℝ) : Prop := Hᵀ = H ∧ ∀ x : P → ℝ, x ⬝ᵥ (H *ᵥ x) ≤ -c * (x ⬝ᵥ x)

/-- Symmetric and positive semidefinite. -/
def Spec.SymmPSD (H : Matrix P P ℝ) : Prop := Hᵀ = H ∧ ∀ x : P → ℝ, 0 ≤ x ⬝ᵥ (H *ᵥ x)

/-- All weights are non-negative. -/
def Spec.NonnegWeights (weights : Option (R → ℝ)) : Prop :=
  ∀ w, weights = some w → ∀ r, 0 ≤ w r

theorem nonnegWeights_default {weights : Option (R → ℝ)} (hw : NonnegWeights weights) :
    ∀ r, 0 ≤ defaultWeights weights r := by
  intro r
  cases h : weights with
  | none => simp [defaultWeights]
  | some w => exact hw w h r

theorem ridge_getD_nonneg {ridge : Option ℝ} (hρ : ∀ ρ, ridge = some ρ → 0 ≤ ρ) :
    0 ≤ ridge.getD 0 := by
  cases h : ridge with
  | none => simp
  | some c => exact hρ c h

/-! ## C26 -/

/-- The common core: every branch of `calc_hessian` is the negative quadratic product of its stacked
derivative matrix. -/
theorem core_symm_nsd {M : Matrix R O ℝ} {f : R → O} (hM : Indicates M f) {weights : Option (R → ℝ)}
    (hw : ObsWeights f weights) (hw0 : NonnegWeights weights) {ridge : Option ℝ}
    (hρ : ∀ ρ, ridge = some ρ → 0 ≤ ρ) (J : Matrix R P ℝ) (h : R → ℝ) :
    SymmNSD (ridgeMat ridge (negQuad J J (longProbs M h) M weights)) := by
  refine ⟨?_, fun x => ?_⟩
  · rw [ridgeMat_transpose, negQuad_transpose hM _ _ _ (obsWeights_default hw)]
  · rw [ridgeMat_form]
    have h1 := negQuad_nonpos hM J (fun r => (longProbs_pos hM h r).le) (longProbs_sum_le hM h)
      (obsWeights_default hw) (nonnegWeights_default hw0) x
    have h2 : 0 ≤ x ⬝ᵥ x := by
      simp only [dotProduct]; exact Finset.sum_nonneg fun i _ => mul_self_nonneg _
    have := mul_nonneg (ridge_getD_nonneg hρ) h2
    nlinarith

theorem hessianBoth_eq {M : Matrix R O ℝ} {f : R → O} (hM : Indicates M f) {weights : Option (R → ℝ)}
    (hw : ObsWeights f weights) (d : Derivs R S I) (X : Matrix R K ℝ) (p : R → ℝ)
    (ridge : Option ℝ) :
    hessianBoth d X p M ridge weights = ridgeMat ridge
      (negQuad (fromCols d.dhdc (fromCols d.dhdalpha (d.dhdv * X)))
        (fromCols d.dhdc (fromCols d.dhdalpha (d.dhdv * X))) p M weights) := by
  simp only [hessianBoth]
  congr 1
  simp only [negQuad_transpose hM _ _ p (obsWeights_default hw)]
  ext i j
  rcases i with i | i | i <;> rcases j with j | j | j <;> simp [negQuad_apply hM]

theorem hessianShape_eq {M : Matrix R O ℝ} {f : R → O} (hM : Indicates M f)
    {weights : Option (R → ℝ)} (hw : ObsWeights f weights) (d : Derivs R S I) (X : Matrix R K ℝ)
    (p : R → ℝ) (ridge : Option ℝ) :
    hessianShape d X p M ridge weights = ridgeMat ridge
      (negQuad (fromCols d.dhdc (d.dhdv * X)) (fromCols d.dhdc (d.dhdv * X)) p M weights) := by
  simp only [hessianShape]
  congr 1
  simp only [negQuad_transpose hM _ _ p (obsWeights_default hw)]
  ext i j
  rcases i with i | i <;> rcases j with j | j <;> simp [negQuad_apply hM]

theorem hessianIcpt_eq {M : Matrix R O ℝ} {f : R → O} (hM : Indicates M f)
    {weights : Option (R → ℝ)} (hw : ObsWeights f weights) (d : Derivs R S I) (X : Matrix R K ℝ)
    (p : R → ℝ) (ridge : Option ℝ) :
    hessianIcpt d X p M ridge weights = ridgeMat ridge
      (negQuad (fromCols d.dhdalpha (d.dhdv * X)) (fromCols d.dhdalpha (d.dhdv * X)) p M weights) := by
  simp only [hessianIcpt]
  congr 1
  simp only [negQuad_transpose hM _ _ p (obsWeights_default hw)]
  ext i j
  rcases i with i | i <;> rcases j with j | j <;> simp [negQuad_apply hM]

/-- **C26**, for every model, whatever derivative matrices it supplies: with non-negative
per-observation weights and ridge the Hessian is symmetric and negative semidefinite. -/
theorem hessian_symm_nsd {M : Matrix R O ℝ} {f : R → O} (hM : Indicates M f)
    {weights : Option (R → ℝ)} (hw : ObsWeights f weights) (hw0 : NonnegWeights weights)
    {ridge : Option ℝ} (hρ : ∀ ρ, ridge = some ρ → 0 ≤ ρ) (d : Derivs R S I) (X : Matrix R K ℝ)
    (β : K → ℝ) (ids : R → ι) (rta : Matrix R A ℝ) (T : Transform R A S I ι)
    (icpt : Option (I → ℝ)) (shape : Option (S → ℝ)) :
    SymmNSD (hessianBoth d X (modelProbs β X ids M rta T icpt shape) M ridge weights) ∧
    SymmNSD (hessianShape d X (modelProbs β X ids M rta T icpt shape) M ridge weights) ∧
    SymmNSD (hessianIcpt d X (modelProbs β X ids M rta T icpt shape) M ridge weights) ∧
    SymmNSD (hessianNone d X (modelProbs β X ids M rta T icpt shape) M ridge weights) := by
  refine ⟨?_, ?_, ?_, core_symm_nsd hM hw hw0 hρ _ _⟩
  · rw [hessianBoth_eq hM hw]; exact core_symm_nsd hM hw hw0 hρ _ _
  · rw [hessianShape_eq hM hw]; exact core_symm_nsd hM hw hw0 hρ _ _
  · rw [hessianIcpt_eq hM hw]; exact core_symm_nsd hM hw hw0 hρ _ _

theorem Spec.SymmBelow.nsd {c : ℝ} {H : Matrix P P ℝ} (h : SymmBelow c H) (hc : 0 ≤ c) : SymmNSD H :=
  ⟨h.1, fun x => (h.2 x).trans (by
    have : 0 ≤ x ⬝ᵥ x := Finset.sum_nonneg fun i _ => mul_self_nonneg _
    nlinarith)⟩

/-- A symmetric matrix below a negative multiple of the identity is invertible. -/
theorem Spec.SymmBelow.regular {c : ℝ} {H : Matrix P P ℝ} (h : SymmBelow c H) (hc : 0 < c) : IsUnit H.det := by
  rw [isUnit_iff_ne_zero]
  intro h0
  obtain ⟨v, hv, hHv⟩ := Matrix.exists_mulVec_eq_zero_iff.2 h0
  have h1 := h.2 v
  rw [hHv, dotProduct_zero] at h1
  have h2 : 0 < v ⬝ᵥ v := by
    refine lt_of_le_of_ne (Finset.sum_nonneg fun i _ => mul_self_nonneg _) fun e => hv ?_
    have e' : ∑ i, v i * v i = 0 := e.symm
    rw [Finset.sum_eq_zero_iff_of_nonneg fun i _ => mul_self_nonneg _] at e'
    exact funext fun i => mul_self_eq_zero.1 (e' i (Finset.mem_univ i))
  nlinarith

/-- The common core of `hessian_ridge_bound`. -/
theorem core_ridge_bound {M : Matrix R O ℝ} {f : R → O} (hM : Indicates M f) {weights : Option (R → ℝ)}
    (hw : ObsWeights f weights) (hw0 : NonnegWeights weights) (ridge : Option ℝ) (J : Matrix R P ℝ) (h : R → ℝ) :
    SymmBelow (2 * ridge.getD 0) (ridgeMat ridge (negQuad J J (longProbs M h) M weights)) := by
  refine ⟨?_, fun x => ?_⟩
  · rw [ridgeMat_transpose, negQuad_transpose hM _ _ _ (obsWeights_default hw)]
  · rw [ridgeMat_form]
    have h1 := negQuad_nonpos hM J (fun r => (longProbs_pos hM h r).le) (longProbs_sum_le hM h)
      (obsWeights_default hw) (nonnegWeights_default hw0) x
    linarith

/-- **C26** (effect of the ridge penalty): whatever the ridge penalty, the Hessian of every logit-type model is
symmetric, and lies below minus twice the penalty. -/
theorem hessian_ridge_bound {M : Matrix R O ℝ} {f : R → O} (hM : Indicates M f)
    {weights : Option (R → ℝ)} (hw : ObsWeights f weights) (hw0 : NonnegWeights weights)
    (ridge : Option ℝ) (d : Derivs R S I) (X : Matrix R K ℝ)
    (β : K → ℝ) (ids : R → ι) (rta : Matrix R A ℝ) (T : Transform R A S I ι)
    (icpt : Option (I → ℝ)) (shape : Option (S → ℝ)) :
    SymmBelow (2 * ridge.getD 0) (hessianBoth d X (modelProbs β X ids M rta T icpt shape) M ridge weights) ∧
    SymmBelow (2 * ridge.getD 0) (hessianShape d X (modelProbs β X ids M rta T icpt shape) M ridge weights) ∧
    SymmBelow (2 * ridge.getD 0) (hessianIcpt d X (modelProbs β X ids M rta T icpt shape) M ridge weights) ∧
    SymmBelow (2 * ridge.getD 0) (hessianNone d X (modelProbs β X ids M rta T icpt shape) M ridge weights) := by
  refine ⟨?_, ?_, ?_, core_ridge_bound hM hw hw0 ridge _ _⟩
  · rw [hessianBoth_eq hM hw]; exact core_ridge_bound hM hw hw0 ridge _ _
  · rw [hessianShape_eq hM hw]; exact core_ridge_bound hM hw hw0 ridge _ _
  · rw [hessianIcpt_eq hM hw]; exact core_ridge_bound hM hw hw0 ridge _ _

/-- **C26** (negation for row-varying weights): when the weights of the two rows of one observation
differ, the MNL Hessian is not even symmetric. -/
theorem hessian_asymmetric_for_row_weights :
    ∃ w : Fin 2 → ℝ, (∀ r, 0 ≤ w r) ∧
      ¬ (hessianNone (S := Empty) (I := Empty) mnlDerivs (1 : Matrix (Fin 2) (Fin 2) ℝ)
        (modelProbs (S := Empty) (I := Empty) 0 (1 : Matrix (Fin 2) (Fin 2) ℝ) (fun r => r) (fun _ (_ : Fin 1) => 1)
          exRta mnlTransform none none) (fun _ (_ : Fin 1) => 1) none (some w)).IsSymm := by
  refine ⟨![1, 2], by intro r; fin_cases r <;> simp, fun h => ?_⟩
  have hM : Indicates (fun (_ : Fin 2) (_ : Fin 1) => (1 : ℝ)) (fun _ => 0) := by
    intro r o; fin_cases o; simp
  have hpos : ∀ r, 0 < modelProbs (S := Empty) (I := Empty) 0 (1 : Matrix (Fin 2) (Fin 2) ℝ) (fun r : Fin 2 => r)
      (fun _ (_ : Fin 1) => 1) exRta mnlTransform none none r := fun r => longProbs_pos hM _ r
  generalize modelProbs (S := Empty) (I := Empty) 0 (1 : Matrix (Fin 2) (Fin 2) ℝ) (fun r : Fin 2 => r)
      (fun _ (_ : Fin 1) => 1) exRta mnlTransform none none = p at h hpos
  have e := h.apply 0 1
  simp only [hessianNone, mnlDerivs, ridgeMat, Matrix.one_mul] at e
  rw [negQuad_apply hM, negQuad_apply hM] at e
  simp [rowsOf, Fin.sum_univ_two, defaultWeights, Matrix.one_apply] at e
  have h0 := hpos 0
  have h1 := hpos 1
  have := mul_pos h0 h1
  nlinarith

/-! ## C28 -/

theorem weightsPerObs_eq [Nonempty R] {M : Matrix R O ℝ} {f : R → O} (hM : Indicates M f)
    {w : R → ℝ} (hw : ∀ r s, f r = f s → w r = w s) (hw0 : ∀ r, 0 ≤ w r) (r : R) :
    weightsPerObs M w (f r) = w r := by
  apply le_antisymm
  · refine Finset.sup'_le _ _ fun s _ => ?_
    rw [hM s]
    by_cases h : f s = f r
    · simp [h, hw s r h]
    · simpa [h] using hw0 r
  · have := Finset.le_sup' (fun s => M s (f r) * w s) (Finset.mem_univ r)
    rw [hM r, if_pos rfl, one_mul] at this
    exact this

/-- The score of an observation: sum over its rows of (choice - probability) times the row's
derivatives. -/
def Spec.obsScore (f : R → O) (choice p : R → ℝ) (J : Matrix R P ℝ) (o : O) : P → ℝ :=
  fun i => ∑ r ∈ rowsOf f o, (choice r - p r) * J r i

/-- **C28** (formula): entry `(i, j)` is the sum over observations of weight times the product of
the score components, minus `2 * ridge` on the diagonal. -/
theorem fisher_formula [Nonempty R] {M : Matrix R O ℝ} {f : R → O} (hM : Indicates M f)
    (hf : Function.Surjective f) {weights : Option (R → ℝ)} (hw : ObsWeights f weights)
    (hw0 : NonnegWeights weights) (J : Matrix R P ℝ) (choice p : R → ℝ) (ridge : Option ℝ)
    (wObs : O → ℝ) (hwo : ∀ r, wObs (f r) = defaultWeights weights r) (i j : P) :
    fisherCore J choice p M ridge weights i j =
      ∑ o, wObs o * (obsScore f choice p J o i * obsScore f choice p J o j)
        - 2 * ridge.getD 0 * (if i = j then 1 else 0) := by
  rw [fisherCore, ridgeMat_apply, Matrix.mul_apply]
  congr 1
  refine Finset.sum_congr rfl fun o _ => ?_
  obtain ⟨r, rfl⟩ := hf o
  have hs : ∀ k, (Mᵀ * Matrix.of (fun r i => (choice r - p r) * J r i)) (f r) k =
      obsScore f choice p J (f r) k := by
    intro k
    rw [obsScore, ← sum_indicates hM]
    exact Finset.sum_congr rfl fun s _ => mul_comm _ _
  have hq : weightsPerObs M (defaultWeights weights) (f r) = wObs (f r) := by
    rw [hwo]
    exact weightsPerObs_eq hM (obsWeights_default hw) (nonnegWeights_default hw0) r
  rw [Matrix.transpose_apply, Matrix.of_apply, hs, hs, hq]
  ring

theorem fisherCore_psd [Nonempty R] (M : Matrix R O ℝ) {weights : Option (R → ℝ)}
    (hw0 : NonnegWeights weights) (hM0 : ∀ r o, 0 ≤ M r o) (J : Matrix R P ℝ) (choice p : R → ℝ) :
    SymmPSD (fisherCore J choice p M none weights) := by
  set G : Matrix O P ℝ := Mᵀ * Matrix.of (fun r i => (choice r - p r) * J r i) with hG
  set wo := weightsPerObs M (defaultWeights weights) with hwo
  have hF : fisherCore J choice p M none weights = Gᵀ * (Matrix.diagonal wo * G) := by
    simp only [fisherCore, ridgeMat]
    refine congrArg (Gᵀ * ·) (Matrix.ext fun o i => ?_)
    rw [Matrix.diagonal_mul]; rfl
  have hwo0 : ∀ o, 0 ≤ wo o := by
    intro o
    obtain ⟨r⟩ := ‹Nonempty R›
    refine le_trans (mul_nonneg (hM0 r o) (nonnegWeights_default hw0 r)) ?_
    exact Finset.le_sup' (fun s => M s o * defaultWeights weights s) (Finset.mem_univ r)
  rw [hF]
  refine ⟨?_, fun x => ?_⟩
  · simp [Matrix.transpose_mul, Matrix.mul_assoc]
  · have : x ⬝ᵥ ((Gᵀ * (Matrix.diagonal wo * G)) *ᵥ x) = ∑ o, wo o * (G *ᵥ x) o ^ 2 := by
      clear_value G
      rw [← Matrix.mulVec_mulVec, Matrix.dotProduct_mulVec, Matrix.vecMul_transpose,
        ← Matrix.mulVec_mulVec]
      simp only [dotProduct, Matrix.mulVec_diagonal]
      exact Finset.sum_congr rfl fun o _ => by ring
    rw [this]
    exact Finset.sum_nonneg fun o _ => mul_nonneg (hwo0 o) (sq_nonneg _)

/-- **C28** (partial): without a ridge penalty all branches are symmetric positive semidefinite.
Missing: with a ridge penalty this is false of the code, see `fisher_ridge_not_psd`. -/
theorem fisher_psd_partial [Nonempty R] {M : Matrix R O ℝ} {f : R → O} (hM : Indicates M f)
    {weights : Option (R → ℝ)} (hw0 : NonnegWeights weights) (d : Derivs R S I)
    (X : Matrix R K ℝ) (choice p : R → ℝ) :
    SymmPSD (fisherBoth d X choice p M none weights) ∧
    SymmPSD (fisherShape d X choice p M none weights) ∧
    SymmPSD (fisherIcpt d X choice p M none weights) ∧
    SymmPSD (fisherNone d X choice p M none weights) := by
  have h0 : ∀ r o, 0 ≤ M r o := by intro r o; rw [hM r o]; split_ifs <;> simp
  exact ⟨fisherCore_psd M hw0 h0 _ _ _, fisherCore_psd M hw0 h0 _ _ _,
    fisherCore_psd M hw0 h0 _ _ _, fisherCore_psd M hw0 h0 _ _ _⟩

/-- **C28** (negation with a ridge penalty): the code subtracts the penalty from the information, so
whenever `ridge > 0` and some direction has no score information the result has a negative
quadratic form; for instance with a design of zeros. -/
theorem fisher_ridge_not_psd [Nonempty R] [Nonempty K] (M : Matrix R O ℝ) (choice p : R → ℝ)
    (weights : Option (R → ℝ)) {ρ : ℝ} (hρ : 0 < ρ) :
    ¬ SymmPSD (fisherNone (S := Empty) (I := Empty) mnlDerivs (0 : Matrix R K ℝ) choice p M
      (some ρ) weights) := by
  rintro ⟨-, h⟩
  have := h fun _ => 1
  rw [fisherNone, fisherCore, ridgeMat_form] at this
  have z : Matrix.of (fun (_ : R) (_ : K) => (0 : ℝ)) = 0 := rfl
  simp [dotProduct, z] at this
  have hc : (0 : ℝ) < Fintype.card K := by exact_mod_cast Fintype.card_pos
  nlinarith

/-! ## C29 -/

/-- **C29**. For an invertible symmetric Hessian and a symmetric PSD information matrix the robust
covariance is symmetric PSD and does not change when the Hessian changes sign; it is the unique
`C` with `H C H = F`. -/
theorem robust_covariance {H F : Matrix P P ℝ} (hdet : IsUnit H.det) (hH : Hᵀ = H)
    (hF : SymmPSD F) :
    SymmPSD (asymptoticCovariance H F) ∧ asymptoticCovariance (-H) F = asymptoticCovariance H F ∧
      ∀ C, H * C * H = F ↔ C = asymptoticCovariance H F := by
  have hinv : (H⁻¹)ᵀ = H⁻¹ := by rw [Matrix.transpose_nonsing_inv, hH]
  refine ⟨⟨?_, fun x => ?_⟩, ?_, fun C => ⟨?_, ?_⟩⟩
  · rw [asymptoticCovariance, Matrix.transpose_mul, Matrix.transpose_mul, hinv, hF.1,
      Matrix.mul_assoc]
  · have := hF.2 (H⁻¹ *ᵥ x)
    rw [asymptoticCovariance, ← Matrix.mulVec_mulVec, ← Matrix.mulVec_mulVec,
      Matrix.dotProduct_mulVec]
    rwa [← Matrix.mulVec_transpose, hinv]
  · have : (-H)⁻¹ = -H⁻¹ := by
      apply Matrix.inv_eq_right_inv
      rw [neg_mul_neg, Matrix.mul_nonsing_inv H hdet]
    rw [asymptoticCovariance, asymptoticCovariance, this, Matrix.mul_neg, Matrix.neg_mul,
      Matrix.mul_neg, neg_neg]
  · rintro rfl
    rw [asymptoticCovariance]
    have h1 := Matrix.nonsing_inv_mul H hdet
    have h2 := Matrix.mul_nonsing_inv H hdet
    calc C = (H⁻¹ * H) * C * (H * H⁻¹) := by rw [h1, h2, Matrix.one_mul, Matrix.mul_one]
      _ = _ := by simp only [Matrix.mul_assoc]
  · rintro rfl
    rw [asymptoticCovariance]
    have h1 := Matrix.nonsing_inv_mul H hdet
    have h2 := Matrix.mul_nonsing_inv H hdet
    calc H * (H⁻¹ * (F * H⁻¹)) * H = (H * H⁻¹) * F * (H⁻¹ * H) := by simp only [Matrix.mul_assoc]
      _ = F := by rw [h1, h2, Matrix.one_mul, Matrix.mul_one]

/-! ## Non-vacuity -/

example (X : Matrix (Fin 3) (Fin 2) ℝ) (β : Fin 2 → ℝ) :
    SymmNSD (hessianNone (S := Empty) (I := Empty) mnlDerivs X
      (modelProbs (S := Empty) (I := Empty) β X (fun r => r) exM (1 : Matrix (Fin 3) (Fin 3) ℝ)
        mnlTransform none none) exM (some 0.5) (some ![3, 3, 2])) :=
  (hessian_symm_nsd exM_indicates
    (by intro w h r s hrs; cases h; fin_cases r <;> fin_cases s <;> simp_all [exObs])
    (by intro w h r; cases h; fin_cases r <;> simp) (by rintro ρ h; cases h; norm_num) _ X β _ _ _ _
    _).2.2.2

example : SymmPSD (asymptoticCovariance (!![-2, 1; 1, -2] : Matrix (Fin 2) (Fin 2) ℝ) 1) :=
  (robust_covariance (by simp [Matrix.det_fin_two]; norm_num) (by ext i j; fin_cases i <;> fin_cases j <;> rfl)
    ⟨by simp, fun x => by
      rw [Matrix.one_mulVec]; exact Finset.sum_nonneg fun i _ => mul_self_nonneg (x i)⟩).1

end Pylogit
