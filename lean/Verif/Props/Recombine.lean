import Verif.Spec.Recombine
import Verif.Props.Existence
import Verif.Props.Inference
import Verif.Props.EstimatorsMore
import Mathlib.Data.Matrix.ColumnRowPartitioned

/-!
# C92: units of measurement and coding of the variables do not matter
-/

open Matrix

set_option linter.unusedSectionVars false

namespace Pylogit

open Spec

section Calculus

variable {R O A K S I ι : Type}
variable [Fintype R] [Fintype O] [Fintype K]

theorem vecMul_recoded (u : R → ℝ) (X : Matrix R K ℝ) (M : Matrix K K ℝ) :
    u ᵥ* (X * M) = Mᵀ *ᵥ (u ᵥ* X) := by
  rw [Matrix.mulVec_transpose, Matrix.vecMul_vecMul]

theorem quadraticProd_mul_right {P Q Q' : Type} [Fintype Q] (L : Matrix P R ℝ) (X : Matrix R Q ℝ)
    (M : Matrix Q Q' ℝ) (p : R → ℝ) (rto : Matrix R O ℝ) (w : Option (R → ℝ)) :
    quadraticProd L (X * M) p rto w = quadraticProd L X p rto w * M := by
  simp only [quadraticProd, Matrix.sub_mul, Matrix.mul_assoc]

theorem quadraticProd_mul_left {P P' Q : Type} [Fintype P] (N : Matrix P' P ℝ) (L : Matrix P R ℝ)
    (X : Matrix R Q ℝ) (p : R → ℝ) (rto : Matrix R O ℝ) (w : Option (R → ℝ)) :
    quadraticProd (N * L) X p rto w = N * quadraticProd L X p rto w := by
  have : (Matrix.of fun i r => (N * L) i r * (defaultWeights w r * p r)) =
      N * Matrix.of fun i r => L i r * (defaultWeights w r * p r) := by
    ext i r
    simp only [Matrix.of_apply, Matrix.mul_apply, Finset.sum_mul]
    exact Finset.sum_congr rfl fun j _ => by ring
  simp only [quadraticProd, Matrix.mul_sub, this, Matrix.mul_assoc]

theorem negQuad_mul_right {P Q Q' : Type} [Fintype Q] (D : Matrix R P ℝ) (X : Matrix R Q ℝ)
    (M : Matrix Q Q' ℝ) (p : R → ℝ) (rto : Matrix R O ℝ) (w : Option (R → ℝ)) :
    negQuad D (X * M) p rto w = negQuad D X p rto w * M := by
  simp only [negQuad, quadraticProd_mul_right, Matrix.smul_mul]

theorem negQuad_mul_left {P P' Q : Type} [Fintype P] (D : Matrix R P ℝ) (M : Matrix P P' ℝ)
    (X : Matrix R Q ℝ) (p : R → ℝ) (rto : Matrix R O ℝ) (w : Option (R → ℝ)) :
    negQuad (D * M) X p rto w = Mᵀ * negQuad D X p rto w := by
  simp only [negQuad, Matrix.transpose_mul, quadraticProd_mul_left, Matrix.mul_smul]

theorem onCoefs_inl [Fintype S] [DecidableEq S] (M : Matrix K K ℝ) (x : S ⊕ K → ℝ) (s : S) :
    (onCoefs (S := S) M *ᵥ x) (.inl s) = x (.inl s) := by
  simp [onCoefs, Matrix.fromBlocks_mulVec]

theorem onCoefs_inr [Fintype S] [DecidableEq S] (M : Matrix K K ℝ) (x : S ⊕ K → ℝ) (k : K) :
    (onCoefs (S := S) M *ᵥ x) (.inr k) = (M *ᵥ fun k => x (.inr k)) k := by
  simp only [onCoefs, Matrix.fromBlocks_mulVec, Sum.elim_inr, Matrix.zero_mulVec, zero_add]
  rfl

theorem onCoefs_transpose [DecidableEq S] (M : Matrix K K ℝ) :
    (onCoefs (S := S) M)ᵀ = onCoefs Mᵀ := by
  simp [onCoefs, Matrix.fromBlocks_transpose]

theorem onCoefs_elim [Fintype S] [DecidableEq S] (M : Matrix K K ℝ) (a : S → ℝ) (b : K → ℝ) :
    onCoefs (S := S) M *ᵥ Sum.elim a b = Sum.elim a (M *ᵥ b) := by
  funext q
  rcases q with s | k
  · rw [onCoefs_inl]; rfl
  · rw [onCoefs_inr]; rfl

theorem onCoefs_mul [Fintype S] [DecidableEq S] (M : Matrix K K ℝ) (A : Matrix S S ℝ)
    (B : Matrix S K ℝ) (C : Matrix K S ℝ) (D : Matrix K K ℝ) :
    (onCoefs (S := S) M)ᵀ * Matrix.fromRows (Matrix.fromCols A B) (Matrix.fromCols C D) *
        onCoefs (S := S) M =
      Matrix.fromRows (Matrix.fromCols A (B * M)) (Matrix.fromCols (Mᵀ * C) (Mᵀ * D * M)) := by
  rw [onCoefs_transpose]
  simp only [onCoefs, Matrix.fromRows_fromCols_eq_fromBlocks, Matrix.fromBlocks_multiply]
  simp

variable [DecidableEq K] [Fintype S] [Fintype I]

/-- Recoding the columns of a model without other parameters. -/
theorem estimatorNone_recoded (T : Transform R A S I ι) (derivs : (R → ℝ) → Derivs R S I)
    (d : FitData R O A K ι) (M : Matrix K K ℝ) (weights : Option (R → ℝ))
    (constrained : Option (List K)) :
    Reexpressed M (estimatorNone T derivs d none weights constrained)
      (estimatorNone T derivs (recoded d M) none weights constrained) := by
  constructor
  · intro x
    simp only [estimatorNone, recoded, calcLogLikelihood, modelProbs, Matrix.mulVec_mulVec]
  · intro x
    simp only [estimatorNone, recoded, gradientNone, modelProbs, ridgeGrad, ← Matrix.mulVec_mulVec,
      ← Matrix.mul_assoc, vecMul_recoded]
  · intro x
    simp only [estimatorNone, recoded, hessianNone, modelProbs, ridgeMat, ← Matrix.mulVec_mulVec,
      ← Matrix.mul_assoc, negQuad_mul_right, negQuad_mul_left]

/-- Recoding the columns of a model with outside intercepts. -/
theorem estimatorIcpt_recoded [DecidableEq I] (T : Transform R A S I ι)
    (derivs : (R → ℝ) → Derivs R S I) (d : FitData R O A K ι) (M : Matrix K K ℝ)
    (weights : Option (R → ℝ)) (constrained : Option (List (I ⊕ K))) :
    Reexpressed (onCoefs M) (estimatorIcpt T derivs d none weights constrained)
      (estimatorIcpt T derivs (recoded d M) none weights constrained) := by
  constructor
  · intro x
    simp only [estimatorIcpt, recoded, calcLogLikelihood, modelProbs, onCoefs_inl, onCoefs_inr,
      ← Matrix.mulVec_mulVec]
  · intro x
    simp only [estimatorIcpt, recoded, gradientIcpt, modelProbs, ridgeGrad, onCoefs_inl, onCoefs_inr,
      onCoefs_transpose, onCoefs_elim, ← Matrix.mulVec_mulVec, ← Matrix.mul_assoc, vecMul_recoded]
  · intro x
    simp only [estimatorIcpt, recoded, hessianIcpt, modelProbs, ridgeMat, onCoefs_inl, onCoefs_inr,
      onCoefs_mul, ← Matrix.mulVec_mulVec, ← Matrix.mul_assoc, negQuad_mul_right, negQuad_mul_left,
      Matrix.transpose_mul, Matrix.transpose_transpose]

/-- Recoding the columns of a model with shape parameters. -/
theorem estimatorShape_recoded [DecidableEq S] (T : Transform R A S I ι)
    (derivs : (S → ℝ) → (R → ℝ) → Derivs R S I) (d : FitData R O A K ι) (M : Matrix K K ℝ)
    (weights : Option (R → ℝ)) (constrained : Option (List (S ⊕ K))) :
    Reexpressed (onCoefs M) (estimatorShape T derivs d none weights constrained)
      (estimatorShape T derivs (recoded d M) none weights constrained) := by
  constructor
  · intro x
    simp only [estimatorShape, recoded, calcLogLikelihood, modelProbs, onCoefs_inl, onCoefs_inr,
      ← Matrix.mulVec_mulVec]
  · intro x
    simp only [estimatorShape, recoded, gradientShape, modelProbs, ridgeGrad, onCoefs_inl, onCoefs_inr,
      onCoefs_transpose, onCoefs_elim, ← Matrix.mulVec_mulVec, ← Matrix.mul_assoc, vecMul_recoded]
  · intro x
    simp only [estimatorShape, recoded, hessianShape, modelProbs, ridgeMat, onCoefs_inl, onCoefs_inr,
      onCoefs_mul, ← Matrix.mulVec_mulVec, ← Matrix.mul_assoc, negQuad_mul_right, negQuad_mul_left,
      Matrix.transpose_mul, Matrix.transpose_transpose]

theorem fromCols_mul_onCoefs {S' K' P' : Type} [Fintype S'] [DecidableEq S'] [Fintype K']
    (A : Matrix P' S' ℝ) (B : Matrix P' K' ℝ) (M : Matrix K' K' ℝ) :
    Matrix.fromCols A B * onCoefs (S := S') M = Matrix.fromCols A (B * M) := by
  simp [onCoefs, Matrix.fromCols_mul_fromBlocks]

theorem onCoefs_mul_fromRows {S' K' P' : Type} [Fintype S'] [DecidableEq S'] [Fintype K']
    (A : Matrix S' P' ℝ) (B : Matrix K' P' ℝ) (M : Matrix K' K' ℝ) :
    onCoefs (S := S') M * Matrix.fromRows A B = Matrix.fromRows A (M * B) := by
  simp [onCoefs, Matrix.fromBlocks_mul_fromRows]

/-- Recoding the columns of a model with shape parameters and outside intercepts. -/
theorem estimatorBoth_recoded [DecidableEq S] [DecidableEq I] (T : Transform R A S I ι)
    (derivs : (S → ℝ) → (R → ℝ) → Derivs R S I) (d : FitData R O A K ι) (M : Matrix K K ℝ)
    (weights : Option (R → ℝ)) (constrained : Option (List (S ⊕ (I ⊕ K)))) :
    Reexpressed (onCoefs (onCoefs M)) (estimatorBoth T derivs d none weights constrained)
      (estimatorBoth T derivs (recoded d M) none weights constrained) := by
  constructor
  · intro x
    simp only [estimatorBoth, recoded, calcLogLikelihood, modelProbs, onCoefs_inl, onCoefs_inr,
      ← Matrix.mulVec_mulVec]
  · intro x
    simp only [estimatorBoth, recoded, gradientBoth, modelProbs, ridgeGrad, onCoefs_inl, onCoefs_inr,
      onCoefs_transpose, onCoefs_elim, ← Matrix.mulVec_mulVec, ← Matrix.mul_assoc, vecMul_recoded]
  · intro x
    simp only [estimatorBoth, recoded, hessianBoth, modelProbs, ridgeMat, onCoefs_inl, onCoefs_inr,
      onCoefs_transpose, onCoefs_mul_fromRows, Matrix.fromRows_mul, fromCols_mul_onCoefs,
      Matrix.mul_fromCols,
      ← Matrix.mulVec_mulVec, ← Matrix.mul_assoc, negQuad_mul_right, negQuad_mul_left,
      Matrix.transpose_mul, Matrix.transpose_transpose]

theorem fisherCore_recoded [Nonempty R] {P : Type} [Fintype P] [DecidableEq P] (J : Matrix R P ℝ)
    (N : Matrix P P ℝ) (choice p : R → ℝ) (rto : Matrix R O ℝ) (weights : Option (R → ℝ)) :
    fisherCore (J * N) choice p rto none weights =
      Nᵀ * fisherCore J choice p rto none weights * N := by
  have h1 : (Matrix.of fun r i => (choice r - p r) * (J * N) r i) =
      (Matrix.of fun r i => (choice r - p r) * J r i) * N := by
    ext r i
    simp only [Matrix.of_apply, Matrix.mul_apply, Finset.mul_sum]
    exact Finset.sum_congr rfl fun j _ => by ring
  have h2 : ∀ (w : O → ℝ) (G : Matrix O P ℝ), (Matrix.of fun o i => w o * (G * N) o i) =
      (Matrix.of fun o i => w o * G o i) * N := by
    intro w G
    ext r i
    simp only [Matrix.of_apply, Matrix.mul_apply, Finset.mul_sum]
    exact Finset.sum_congr rfl fun j _ => by ring
  simp only [fisherCore, ridgeMat, h1, ← Matrix.mul_assoc, h2, Matrix.transpose_mul]

/-- **C92**. The Fisher information matrices after recoding the columns. -/
theorem fisher_recoded [Nonempty R] [DecidableEq S] [DecidableEq I] (D : Derivs R S I)
    (X : Matrix R K ℝ) (M : Matrix K K ℝ) (choice p : R → ℝ) (rto : Matrix R O ℝ)
    (weights : Option (R → ℝ)) :
    fisherNone D (X * M) choice p rto none weights =
      Mᵀ * fisherNone D X choice p rto none weights * M ∧
    fisherIcpt D (X * M) choice p rto none weights =
      (onCoefs M)ᵀ * fisherIcpt D X choice p rto none weights * onCoefs M ∧
    fisherShape D (X * M) choice p rto none weights =
      (onCoefs M)ᵀ * fisherShape D X choice p rto none weights * onCoefs M ∧
    fisherBoth D (X * M) choice p rto none weights =
      (onCoefs (onCoefs M))ᵀ * fisherBoth D X choice p rto none weights * onCoefs (onCoefs M) := by
  refine ⟨?_, ?_, ?_, ?_⟩
  · simp only [fisherNone, ← Matrix.mul_assoc, fisherCore_recoded]
  · simp only [fisherIcpt, ← fisherCore_recoded, fromCols_mul_onCoefs]
    rw [Matrix.mul_assoc]
  · simp only [fisherShape, ← fisherCore_recoded, fromCols_mul_onCoefs]
    rw [Matrix.mul_assoc]
  · simp only [fisherBoth, ← fisherCore_recoded, fromCols_mul_onCoefs]
    rw [Matrix.mul_assoc]

end Calculus

section Models

variable {R O A K ι N : Type} {n : ℕ}
variable [Fintype R] [DecidableEq R] [Fintype O] [Fintype K] [DecidableEq K]

/-- **C92** (MNL). -/
theorem mnl_recoded (d : FitData R O A K ι) (M : Matrix K K ℝ) (weights : Option (R → ℝ))
    (constrained : Option (List K)) :
    Reexpressed M (mnlEstimator d none weights constrained)
      (mnlEstimator (recoded d M) none weights constrained) :=
  estimatorNone_recoded _ _ _ _ _ _

/-- **C92** (clog-log). -/
theorem clog_recoded (ref : Fin (n + 1)) (d : FitData R O (Fin (n + 1)) K ι) (M : Matrix K K ℝ)
    (weights : Option (R → ℝ)) :
    (∀ constrained, Reexpressed M (clogEstimatorPlain ref d none weights constrained)
      (clogEstimatorPlain ref (recoded d M) none weights constrained)) ∧
    ∀ constrained, Reexpressed (onCoefs M) (clogEstimator ref d none weights constrained)
      (clogEstimator ref (recoded d M) none weights constrained) :=
  ⟨fun _ => estimatorNone_recoded _ _ _ _ _ _, fun _ => estimatorIcpt_recoded _ _ _ _ _ _⟩

/-- **C92** (Scobit). -/
theorem scobit_recoded (ref : Fin (n + 1)) (d : FitData R O (Fin (n + 1)) K ι) (M : Matrix K K ℝ)
    (weights : Option (R → ℝ)) :
    (∀ constrained, Reexpressed (onCoefs M) (scobitEstimatorPlain ref d none weights constrained)
      (scobitEstimatorPlain ref (recoded d M) none weights constrained)) ∧
    ∀ constrained, Reexpressed (onCoefs (onCoefs M)) (scobitEstimator ref d none weights constrained)
      (scobitEstimator ref (recoded d M) none weights constrained) :=
  ⟨fun _ => estimatorShape_recoded _ _ _ _ _ _, fun _ => estimatorBoth_recoded _ _ _ _ _ _⟩

/-- **C92** (uneven logit). -/
theorem uneven_recoded (ref : Fin (n + 1)) (d : FitData R O (Fin (n + 1)) K ι) (M : Matrix K K ℝ)
    (weights : Option (R → ℝ)) :
    (∀ constrained, Reexpressed (onCoefs M) (unevenEstimatorPlain ref d none weights constrained)
      (unevenEstimatorPlain ref (recoded d M) none weights constrained)) ∧
    ∀ constrained, Reexpressed (onCoefs (onCoefs M)) (unevenEstimator ref d none weights constrained)
      (unevenEstimator ref (recoded d M) none weights constrained) :=
  ⟨fun _ => estimatorShape_recoded _ _ _ _ _ _, fun _ => estimatorBoth_recoded _ _ _ _ _ _⟩

/-- **C92** (asymmetric logit). -/
theorem asym_recoded (sref ref : Fin (n + 1)) (d : FitData R O (Fin (n + 1)) K ι) (M : Matrix K K ℝ)
    (weights : Option (R → ℝ)) :
    (∀ constrained, Reexpressed (onCoefs M) (asymEstimatorPlain sref ref d none weights constrained)
      (asymEstimatorPlain sref ref (recoded d M) none weights constrained)) ∧
    ∀ constrained, Reexpressed (onCoefs (onCoefs M)) (asymEstimator sref ref d none weights constrained)
      (asymEstimator sref ref (recoded d M) none weights constrained) :=
  ⟨fun _ => estimatorShape_recoded _ _ _ _ _ _, fun _ => estimatorBoth_recoded _ _ _ _ _ _⟩

theorem nestedLongProbs_recoded [Fintype N] (lam : N → ℝ) (x : K → ℝ) (X : Matrix R K ℝ)
    (M : Matrix K K ℝ) (rto : Matrix R O ℝ) (rtn : Matrix R N ℝ) :
    nestedLongProbs lam x (X * M) rto rtn = nestedLongProbs lam (M *ᵥ x) X rto rtn := by
  unfold nestedLongProbs longNumerators indDenom longExpSums indExpSumsPerNest expScaledIndex
  rw [Matrix.mulVec_mulVec]

theorem prepVectors_recoded [Fintype N] (lam : N → ℝ) (x : K → ℝ) (X : Matrix R K ℝ) (M : Matrix K K ℝ)
    (choice : R → ℝ) (rto : Matrix R O ℝ) (rtn : Matrix R N ℝ) :
    prepVectors lam x (X * M) choice rto rtn = prepVectors lam (M *ᵥ x) X choice rto rtn := by
  have h2 : probGivenNest lam x (X * M) rto rtn = probGivenNest lam (M *ᵥ x) X rto rtn := by
    unfold probGivenNest longExpSums indExpSumsPerNest expScaledIndex
    rw [Matrix.mulVec_mulVec]
  simp only [prepVectors, nestedLongProbs_recoded, h2, nestChoiceProbs, indDenom, indExpSumsPerNest, expScaledIndex,
    Matrix.mulVec_mulVec]

/-- **C92** (nested logit). -/
theorem nested_recoded [Nonempty R] [Fintype N] [DecidableEq N] (d : FitData R O A K ι)
    (rtn : Matrix R N ℝ) (M : Matrix K K ℝ) (weights : Option (R → ℝ)) :
    Reexpressed (onCoefs M) (nestedEstimator d rtn none weights none)
      (nestedEstimator (recoded d M) rtn none weights none) := by
  have hscores : ∀ (y : N → ℝ) (x : K → ℝ),
      nestedScores y x (d.design * M) d.choice d.rowsToObs rtn true =
        nestedScores y (M *ᵥ x) d.design d.choice d.rowsToObs rtn true * onCoefs M := by
    intro y x
    simp only [nestedScores, prepVectors_recoded, fromCols_mul_onCoefs, Matrix.mul_assoc]
    congr 2
    ext r k
    simp only [Matrix.of_apply, Matrix.mul_apply, Finset.mul_sum]
    exact Finset.sum_congr rfl fun j _ => by ring
  constructor
  · intro x
    simp only [nestedEstimator, recoded, calcNestedLogLikelihood, nestedLongProbs_recoded,
      onCoefs_inl, onCoefs_inr]
  · intro x
    simp only [nestedEstimator, recoded, calcNestedGradient, prepVectors_recoded, onCoefs_inl,
      onCoefs_inr, onCoefs_transpose, onCoefs_elim, vecMul_recoded]
  · intro x
    have h2 : ∀ (w : O → ℝ) (G : Matrix O (N ⊕ K) ℝ), (Matrix.of fun o i => w o * (G * onCoefs (S := N) M) o i) =
        (Matrix.of fun o i => w o * G o i) * onCoefs M := by
      intro w G
      ext r i
      simp only [Matrix.of_apply, Matrix.mul_apply, Finset.mul_sum]
      exact Finset.sum_congr rfl fun j _ => by ring
    simp only [nestedEstimator, recoded, maskOpt, calcNestedBHHH, onCoefs_inl, onCoefs_inr, hscores, h2,
      Matrix.transpose_mul, Matrix.mul_smul, Matrix.smul_mul, Matrix.mul_assoc]

/-- **C92** (mixed logit). `J` recodes the columns of the expanded design matrix. -/
theorem mixed_recoded {D M P : Type} [Nonempty R] [Fintype M] [Fintype D] [Fintype P] [DecidableEq P]
    (X : R → D → P → ℝ) (J : Matrix P P ℝ) (rto : Matrix R O ℝ) (rtm : Matrix R M ℝ)
    (choice : R → ℝ) (weights : Option (R → ℝ)) :
    Reexpressed J (mixedEstimator X rto rtm choice none weights none)
      (mixedEstimator (fun r d => X r d ᵥ* J) rto rtm choice none weights none) := by
  have hk : ∀ x : P → ℝ, kernelProbs x (fun r d => X r d ᵥ* J) rto = kernelProbs (J *ᵥ x) X rto := by
    intro x
    funext r d
    simp only [kernelProbs]
    congr 1
    funext r
    exact Matrix.dotProduct_mulVec (X r d) J x |>.symm
  have hs : ∀ x : P → ℝ, mixedScores x (fun r d => X r d ᵥ* J) rto rtm choice =
      mixedScores (J *ᵥ x) X rto rtm choice * J := by
    intro x
    simp only [mixedScores, hk, Matrix.mul_assoc]
    congr 1
    ext r q
    simp only [Matrix.of_apply, Matrix.mul_apply, drawMean, Matrix.vecMul, dotProduct, Finset.mul_sum,
      Finset.sum_div, Finset.sum_mul]
    rw [Finset.sum_comm]
    refine Finset.sum_congr rfl fun j _ => Finset.sum_congr rfl fun d _ => ?_
    ring
  constructor
  · intro x
    simp only [mixedEstimator, mixedLogLikelihood, hk]
  · intro x
    funext q
    simp only [mixedEstimator, mixedGradient, ridgeGrad, hk, drawMean, Matrix.vecMul, Matrix.mulVec,
      dotProduct, Matrix.transpose_apply, Finset.mul_sum, Finset.sum_mul, Finset.sum_div]
    rw [Finset.sum_comm (s := (Finset.univ : Finset P))]
    refine Finset.sum_congr rfl fun d _ => ?_
    rw [Finset.sum_comm (s := (Finset.univ : Finset P))]
    refine Finset.sum_congr rfl fun r _ => Finset.sum_congr rfl fun j _ => ?_
    ring
  · intro x
    have h2 : ∀ (w : M → ℝ) (G : Matrix M P ℝ), (Matrix.of fun o i => w o * (G * J) o i) =
        (Matrix.of fun o i => w o * G o i) * J := by
      intro w G
      ext r i
      simp only [Matrix.of_apply, Matrix.mul_apply, Finset.mul_sum]
      exact Finset.sum_congr rfl fun j _ => by ring
    simp only [mixedEstimator, maskOpt, mixedBHHH, hs, h2,
      Matrix.transpose_mul, Matrix.mul_smul, Matrix.smul_mul, Matrix.mul_assoc]

end Models

section Units

variable {P : Type} [Fintype P] [DecidableEq P]

theorem mulVec_surjective {J : Matrix P P ℝ} (hJ : IsUnit J.det) (y : P → ℝ) : J *ᵥ (J⁻¹ *ᵥ y) = y := by
  rw [Matrix.mulVec_mulVec, Matrix.mul_nonsing_inv _ hJ, Matrix.one_mulVec]

/-- **C92**. If the recoding can be undone, the best parameters of the recoded model are those that stand for the
best parameters of the original model, and the log-likelihoods there agree. -/
theorem reexpressed_best {J : Matrix P P ℝ} {e e' : Estimator P} (h : Reexpressed J e e')
    (hJ : IsUnit J.det) (x : P → ℝ) : Best e' x ↔ Best e (J *ᵥ x) := by
  constructor
  · intro hb y
    have := hb (J⁻¹ *ᵥ y)
    rwa [h.logLik, h.logLik, mulVec_surjective hJ] at this
  · intro hb y
    rw [h.logLik, h.logLik]
    exact hb _

theorem unitsFree_of_reexpressed {s : P → ℝ} (hs : ∀ i, s i ≠ 0) {e e' : Estimator P}
    (h : Reexpressed (Matrix.diagonal s) e e') : UnitsFree s e e' := by
  have hx : ∀ x : P → ℝ, (Matrix.diagonal s *ᵥ fun i => x i / s i) = x := by
    intro x
    funext i
    rw [Matrix.mulVec_diagonal]
    exact mul_div_cancel₀ _ (hs i)
  have hdet : IsUnit (Matrix.diagonal s).det := by
    rw [Matrix.det_diagonal]
    exact (Finset.prod_ne_zero_iff.2 fun i _ => hs i).isUnit
  refine ⟨fun x => ?_, fun x i => ?_, fun x i j => ?_, fun x => ?_⟩
  · rw [h.logLik, hx]
  · rw [h.gradient, hx, Matrix.diagonal_transpose, Matrix.mulVec_diagonal]
  · rw [h.hessian, hx, Matrix.diagonal_transpose, Matrix.mul_diagonal, Matrix.diagonal_mul]
    ring
  · rw [reexpressed_best h hdet, hx]

end Units

section UnitsModels

variable {R O A K ι N : Type} {n : ℕ}
variable [Fintype R] [DecidableEq R] [Fintype O] [Fintype K] [DecidableEq K]

theorem rescaled_eq (d : FitData R O A K ι) (c : K → ℝ) :
    rescaled d c = recoded d (Matrix.diagonal c) := by
  unfold rescaled recoded
  congr 1
  ext r k
  rw [Matrix.mul_diagonal, Matrix.of_apply]

theorem onCoefs_diagonal {S K : Type} [DecidableEq S] [DecidableEq K] (c : K → ℝ) :
    onCoefs (S := S) (Matrix.diagonal c) = Matrix.diagonal (coefUnits c) := by
  unfold onCoefs coefUnits
  rw [← Matrix.fromBlocks_diagonal]
  rfl

theorem coefUnits_ne {S K : Type} {c : K → ℝ} (hc : ∀ k, c k ≠ 0) (q : S ⊕ K) : coefUnits c q ≠ 0 := by
  rcases q with s | k
  · exact one_ne_zero
  · exact hc k

/-- **C92** (MNL). Multiplying the variables by non-zero factors, with any weights and constrained positions. -/
theorem mnl_units (d : FitData R O A K ι) {c : K → ℝ} (hc : ∀ k, c k ≠ 0) (weights : Option (R → ℝ))
    (constrained : Option (List K)) :
    UnitsFree c (mnlEstimator d none weights constrained)
      (mnlEstimator (rescaled d c) none weights constrained) := by
  rw [rescaled_eq]
  exact unitsFree_of_reexpressed hc (mnl_recoded _ _ _ _)

/-- **C92** (clog-log). -/
theorem clog_units (ref : Fin (n + 1)) (d : FitData R O (Fin (n + 1)) K ι) {c : K → ℝ}
    (hc : ∀ k, c k ≠ 0) (weights : Option (R → ℝ)) :
    (∀ constrained, UnitsFree c (clogEstimatorPlain ref d none weights constrained)
      (clogEstimatorPlain ref (rescaled d c) none weights constrained)) ∧
    ∀ constrained, UnitsFree (coefUnits c) (clogEstimator ref d none weights constrained)
      (clogEstimator ref (rescaled d c) none weights constrained) := by
  rw [rescaled_eq]
  refine ⟨fun _ => unitsFree_of_reexpressed hc ((clog_recoded _ _ _ _).1 _),
    fun _ => unitsFree_of_reexpressed (coefUnits_ne hc) ?_⟩
  rw [← onCoefs_diagonal]
  exact (clog_recoded _ _ _ _).2 _

/-- **C92** (Scobit). -/
theorem scobit_units (ref : Fin (n + 1)) (d : FitData R O (Fin (n + 1)) K ι) {c : K → ℝ}
    (hc : ∀ k, c k ≠ 0) (weights : Option (R → ℝ)) :
    (∀ constrained, UnitsFree (coefUnits c) (scobitEstimatorPlain ref d none weights constrained)
      (scobitEstimatorPlain ref (rescaled d c) none weights constrained)) ∧
    ∀ constrained, UnitsFree (coefUnits (coefUnits c)) (scobitEstimator ref d none weights constrained)
      (scobitEstimator ref (rescaled d c) none weights constrained) := by
  rw [rescaled_eq]
  refine ⟨fun _ => unitsFree_of_reexpressed (coefUnits_ne hc) ?_,
    fun _ => unitsFree_of_reexpressed (coefUnits_ne (coefUnits_ne hc)) ?_⟩
  · rw [← onCoefs_diagonal]
    exact (scobit_recoded _ _ _ _).1 _
  · rw [← onCoefs_diagonal, ← onCoefs_diagonal]
    exact (scobit_recoded _ _ _ _).2 _

/-- **C92** (uneven logit). -/
theorem uneven_units (ref : Fin (n + 1)) (d : FitData R O (Fin (n + 1)) K ι) {c : K → ℝ}
    (hc : ∀ k, c k ≠ 0) (weights : Option (R → ℝ)) :
    (∀ constrained, UnitsFree (coefUnits c) (unevenEstimatorPlain ref d none weights constrained)
      (unevenEstimatorPlain ref (rescaled d c) none weights constrained)) ∧
    ∀ constrained, UnitsFree (coefUnits (coefUnits c)) (unevenEstimator ref d none weights constrained)
      (unevenEstimator ref (rescaled d c) none weights constrained) := by
  rw [rescaled_eq]
  refine ⟨fun _ => unitsFree_of_reexpressed (coefUnits_ne hc) ?_,
    fun _ => unitsFree_of_reexpressed (coefUnits_ne (coefUnits_ne hc)) ?_⟩
  · rw [← onCoefs_diagonal]
    exact (uneven_recoded _ _ _ _).1 _
  · rw [← onCoefs_diagonal, ← onCoefs_diagonal]
    exact (uneven_recoded _ _ _ _).2 _

/-- **C92** (asymmetric logit). -/
theorem asym_units (sref ref : Fin (n + 1)) (d : FitData R O (Fin (n + 1)) K ι) {c : K → ℝ}
    (hc : ∀ k, c k ≠ 0) (weights : Option (R → ℝ)) :
    (∀ constrained, UnitsFree (coefUnits c) (asymEstimatorPlain sref ref d none weights constrained)
      (asymEstimatorPlain sref ref (rescaled d c) none weights constrained)) ∧
    ∀ constrained, UnitsFree (coefUnits (coefUnits c)) (asymEstimator sref ref d none weights constrained)
      (asymEstimator sref ref (rescaled d c) none weights constrained) := by
  rw [rescaled_eq]
  refine ⟨fun _ => unitsFree_of_reexpressed (coefUnits_ne hc) ?_,
    fun _ => unitsFree_of_reexpressed (coefUnits_ne (coefUnits_ne hc)) ?_⟩
  · rw [← onCoefs_diagonal]
    exact (asym_recoded _ _ _ _ _).1 _
  · rw [← onCoefs_diagonal, ← onCoefs_diagonal]
    exact (asym_recoded _ _ _ _ _).2 _

/-- **C92** (nested logit, no constrained positions). -/
theorem nested_units [Nonempty R] [Fintype N] [DecidableEq N] (d : FitData R O A K ι)
    (rtn : Matrix R N ℝ) {c : K → ℝ} (hc : ∀ k, c k ≠ 0) (weights : Option (R → ℝ)) :
    UnitsFree (coefUnits c) (nestedEstimator d rtn none weights none)
      (nestedEstimator (rescaled d c) rtn none weights none) := by
  rw [rescaled_eq]
  refine unitsFree_of_reexpressed (coefUnits_ne hc) ?_
  rw [← onCoefs_diagonal]
  exact nested_recoded _ _ _ _

/-- **C92** (mixed logit, no constrained positions). The standard deviation of a random coefficient has the unit of
its variable. -/
theorem mixed_units {D M J : Type} [Nonempty R] [Fintype M] [Fintype D] [Fintype J] [DecidableEq J]
    (X : Matrix R K ℝ) (draws : J → M → D → ℝ) (pos : J → K) (rto : Matrix R O ℝ) (rtm : Matrix R M ℝ)
    (choice : R → ℝ) {c : K → ℝ} (hc : ∀ k, c k ≠ 0) (weights : Option (R → ℝ)) :
    UnitsFree (Sum.elim c fun j => c (pos j))
      (mixedEstimator (expandedDesign X draws pos rtm) rto rtm choice none weights none)
      (mixedEstimator (expandedDesign (Matrix.of fun r k => X r k * c k) draws pos rtm) rto rtm choice
        none weights none) := by
  have h : expandedDesign (Matrix.of fun r k => X r k * c k) draws pos rtm =
      fun r d => expandedDesign X draws pos rtm r d ᵥ* Matrix.diagonal (Sum.elim c fun j => c (pos j)) := by
    funext r d q
    rw [Matrix.vecMul_diagonal]
    rcases q with k | j
    · rfl
    · simp only [expandedDesign, Matrix.of_apply, Sum.elim_inr]
      ring
  rw [h]
  refine unitsFree_of_reexpressed ?_ (mixed_recoded _ _ _ _ _ _)
  rintro (k | j)
  · exact hc k
  · exact hc _

end UnitsModels

section Inference

variable {n : ℕ}

theorem sqrtNaN_scale (x a : ℝ) (ha : a ≠ 0) : sqrtNaN (x / a ^ 2) = (sqrtNaN x).map fun y => y / |a| := by
  have h2 : (0 : ℝ) < a ^ 2 := by positivity
  unfold sqrtNaN
  by_cases hx : x < 0
  · rw [if_pos hx, if_pos (div_neg_of_neg_of_pos hx h2)]
    rfl
  · rw [if_neg hx, if_neg (not_lt.2 (div_nonneg (not_lt.1 hx) h2.le))]
    rw [Real.sqrt_div (not_lt.1 hx), Real.sqrt_sq_eq_abs]
    rfl

theorem divNaN_scale (x a : ℝ) (ha : a ≠ 0) (se : Option ℝ) :
    divNaN (x / a) (se.map fun y => y / |a|) = (divNaN x se).map fun t => t * (|a| / a) := by
  cases se with
  | none => rfl
  | some b =>
    simp only [divNaN, Option.map_some]
    by_cases hb : b = 0
    · simp [hb]
    · have : b / |a| ≠ 0 := div_ne_zero hb (abs_ne_zero.2 ha)
      rw [if_neg hb, if_neg this, Option.map_some]
      congr 1
      have := abs_ne_zero.2 ha
      field_simp

theorem twoSidedP_sign (sf : ℝ → ℝ) (t : Option ℝ) (a : ℝ) (ha : a ≠ 0) :
    twoSidedP sf (t.map fun t => t * (|a| / a)) = twoSidedP sf t := by
  cases t with
  | none => rfl
  | some t =>
    have : |(|a| / a)| = 1 := by rw [abs_div, abs_abs, div_self (abs_ne_zero.2 ha)]
    simp only [twoSidedP, Option.map_some, abs_mul, this, mul_one]

/-- **C92**. Standard errors, t values and p values after a change of units with the factors `s`: standard errors are
divided by the size of the factor, t values keep their size and change sign with the factor, p values stay. -/
theorem units_inference {sf : ℝ → ℝ} {params : Fin n → ℝ} {H F : Matrix (Fin n) (Fin n) ℝ}
    {r : Inference n} (h : storeInference sf params H F = .ok r) {s : Fin n → ℝ} (hs : ∀ i, s i ≠ 0) :
    ∃ r', storeInference sf (fun i => params i / s i) (Matrix.of fun i j => s i * s j * H i j)
        (Matrix.of fun i j => s i * s j * F i j) = .ok r' ∧
      (∀ i j, r'.cov i j = r.cov i j / (s i * s j)) ∧
      (∀ i j, r'.robustCov i j = r.robustCov i j / (s i * s j)) ∧
      ∀ i, r'.stdErrs i = (r.stdErrs i).map (· / |s i|) ∧
        r'.tvalues i = (r.tvalues i).map (· * (|s i| / s i)) ∧ r'.pvalues i = r.pvalues i ∧
        r'.robustStdErrs i = (r.robustStdErrs i).map (· / |s i|) ∧
        r'.robustTStats i = (r.robustTStats i).map (· * (|s i| / s i)) ∧
        r'.robustPVals i = r.robustPVals i := by
  obtain ⟨hu, rfl⟩ := storeInference_ok h
  have hmat : ∀ G : Matrix (Fin n) (Fin n) ℝ, (Matrix.of fun i j => s i * s j * G i j) =
      Matrix.diagonal s * G * Matrix.diagonal s := by
    intro G
    ext i j
    rw [Matrix.mul_diagonal, Matrix.diagonal_mul, Matrix.of_apply]
    ring
  have hd : IsUnit (Matrix.diagonal s).det := by
    rw [Matrix.det_diagonal]
    exact (Finset.prod_ne_zero_iff.2 fun i _ => hs i).isUnit
  have hdi : (Matrix.diagonal s)⁻¹ = Matrix.diagonal fun i => (s i)⁻¹ := by
    refine Matrix.inv_eq_left_inv ?_
    rw [Matrix.diagonal_mul_diagonal, ← Matrix.diagonal_one]
    congr 1
    funext i
    exact inv_mul_cancel₀ (hs i)
  have hu' : IsUnit (Matrix.diagonal s * H * Matrix.diagonal s).det := by
    rw [Matrix.det_mul, Matrix.det_mul]
    exact (hd.mul hu).mul hd
  have hinv : (Matrix.diagonal s * H * Matrix.diagonal s)⁻¹ =
      Matrix.diagonal (fun i => (s i)⁻¹) * H⁻¹ * Matrix.diagonal fun i => (s i)⁻¹ := by
    rw [Matrix.mul_inv_rev, Matrix.mul_inv_rev, hdi, Matrix.mul_assoc]
  have hDD : Matrix.diagonal (fun i => (s i)⁻¹) * Matrix.diagonal s = 1 := by
    rw [← hdi, Matrix.nonsing_inv_mul _ hd]
  have hDD' : Matrix.diagonal s * Matrix.diagonal (fun i => (s i)⁻¹) = 1 := by
    rw [← hdi, Matrix.mul_nonsing_inv _ hd]
  have hrob : asymptoticCovariance (Matrix.diagonal s * H * Matrix.diagonal s)
      (Matrix.diagonal s * F * Matrix.diagonal s) =
      Matrix.diagonal (fun i => (s i)⁻¹) * asymptoticCovariance H F * Matrix.diagonal fun i => (s i)⁻¹ := by
    unfold asymptoticCovariance
    rw [hinv]
    calc _ = Matrix.diagonal (fun i => (s i)⁻¹) * H⁻¹ *
          ((Matrix.diagonal (fun i => (s i)⁻¹) * Matrix.diagonal s) * F *
            (Matrix.diagonal s * Matrix.diagonal (fun i => (s i)⁻¹)) * H⁻¹ *
              Matrix.diagonal (fun i => (s i)⁻¹)) := by simp only [Matrix.mul_assoc]
      _ = _ := by rw [hDD, hDD']; simp only [Matrix.one_mul, Matrix.mul_one, Matrix.mul_assoc]
  have hcov : ∀ (G : Matrix (Fin n) (Fin n) ℝ) i j,
      (Matrix.diagonal (fun i => (s i)⁻¹) * G * Matrix.diagonal fun i => (s i)⁻¹) i j =
        G i j / (s i * s j) := by
    intro G i j
    rw [Matrix.mul_diagonal, Matrix.diagonal_mul]
    have := hs i
    have := hs j
    field_simp
  have hc1 : ∀ i j, ((-1 : ℝ) • (Matrix.diagonal s * H * Matrix.diagonal s)⁻¹) i j =
      ((-1 : ℝ) • H⁻¹) i j / (s i * s j) := by
    intro i j
    rw [hinv, Matrix.smul_apply, hcov, Matrix.smul_apply]
    simp only [smul_eq_mul]
    ring
  have hsq : ∀ i, s i * s i = s i ^ 2 := fun i => (sq _).symm
  rw [hmat, hmat]
  unfold storeInference
  rw [if_neg (not_not.2 hu')]
  refine ⟨_, rfl, hc1, ?_, fun i => ?_⟩
  · intro i j
    simp only [hrob, hcov]
  · simp only [hc1, hrob, hcov, hsq, sqrtNaN_scale _ _ (hs i), divNaN_scale _ _ (hs i),
      twoSidedP_sign _ _ _ (hs i), and_self]

end Inference

section Fit

variable {R O A ι : Type} {n : ℕ} [Fintype R] [DecidableEq R] [Fintype O]

/-- **C92** (MNL, the reported results). Let the results `r` be stored for a fit with the parameters `x`.  After the
variables were multiplied by non-zero factors, storing the results for the parameters `x / c` succeeds too: the
log-likelihood, p values and absolute t values are the same, and standard errors are divided by the sizes of the
factors. -/
theorem mnl_units_results [Nonempty R] (d : FitData R O A (Fin n) ι) {c : Fin n → ℝ} (hc : ∀ k, c k ≠ 0)
    (weights : Option (R → ℝ)) {sf : ℝ → ℝ} {x : Fin n → ℝ} {r : Inference n}
    (h : storeInference sf x ((mnlEstimator d none weights none).hessian x)
      (fisherNone (S := Empty) (I := Empty) mnlDerivs d.design d.choice
        (modelProbs (S := Empty) (I := Empty) x d.design d.altIDs d.rowsToObs d.rowsToAlts mnlTransform none none)
        d.rowsToObs none weights) = .ok r) :
    ∃ r', storeInference sf (fun k => x k / c k)
        ((mnlEstimator (rescaled d c) none weights none).hessian fun k => x k / c k)
        (fisherNone (S := Empty) (I := Empty) mnlDerivs (rescaled d c).design d.choice
          (modelProbs (S := Empty) (I := Empty) (fun k => x k / c k) (rescaled d c).design d.altIDs d.rowsToObs
            d.rowsToAlts mnlTransform none none)
          d.rowsToObs none weights) = .ok r' ∧
      ∀ i, r'.stdErrs i = (r.stdErrs i).map (· / |c i|) ∧
        r'.tvalues i = (r.tvalues i).map (· * (|c i| / c i)) ∧ r'.pvalues i = r.pvalues i ∧
        r'.robustStdErrs i = (r.robustStdErrs i).map (· / |c i|) ∧
        r'.robustTStats i = (r.robustTStats i).map (· * (|c i| / c i)) ∧
        r'.robustPVals i = r.robustPVals i := by
  obtain ⟨r', h1, -, -, h2⟩ := units_inference h hc
  refine ⟨r', ?_, h2⟩
  rw [← h1]
  have hx : (Matrix.diagonal c *ᵥ fun i => x i / c i) = x := by
    funext i
    rw [Matrix.mulVec_diagonal]
    exact mul_div_cancel₀ _ (hc i)
  have hH : ((mnlEstimator (rescaled d c) none weights none).hessian fun k => x k / c k) =
      Matrix.of fun i j => c i * c j * (mnlEstimator d none weights none).hessian x i j := by
    ext i j
    rw [(mnl_units d hc weights none).hessian, Matrix.of_apply]
  have hp : modelProbs (S := Empty) (I := Empty) (fun k => x k / c k) (rescaled d c).design d.altIDs d.rowsToObs
      d.rowsToAlts mnlTransform none none =
      modelProbs (S := Empty) (I := Empty) x d.design d.altIDs d.rowsToObs d.rowsToAlts mnlTransform none none := by
    rw [rescaled_eq]
    simp only [recoded, modelProbs, ← Matrix.mulVec_mulVec, hx]
  have hF : fisherNone (S := Empty) (I := Empty) mnlDerivs (rescaled d c).design d.choice
        (modelProbs (S := Empty) (I := Empty) x d.design d.altIDs d.rowsToObs d.rowsToAlts mnlTransform none none)
        d.rowsToObs none weights =
      Matrix.of fun i j => c i * c j * fisherNone (S := Empty) (I := Empty) mnlDerivs d.design d.choice
        (modelProbs (S := Empty) (I := Empty) x d.design d.altIDs d.rowsToObs d.rowsToAlts mnlTransform none none)
        d.rowsToObs none weights i j := by
    rw [rescaled_eq, recoded, (fisher_recoded _ _ _ _ _ _ _).1]
    ext i j
    rw [Matrix.diagonal_transpose, Matrix.mul_diagonal, Matrix.diagonal_mul, Matrix.of_apply]
    ring
  rw [hp, hH, hF]

/-- **C92** needs that there is no penalty: a ridge penalty depends on the units. -/
theorem mnl_units_ridge (d : FitData R O A (Fin n) ι) {c : Fin n → ℝ} (hc : ∀ k, c k ≠ 0)
    (weights : Option (R → ℝ)) (constrained : Option (List (Fin n))) (ρ : ℝ) (x : Fin n → ℝ) :
    (mnlEstimator (rescaled d c) (some ρ) weights constrained).logLik (fun k => x k / c k) =
      (mnlEstimator d (some ρ) weights constrained).logLik x + ρ * ∑ k, (1 - 1 / c k ^ 2) * x k ^ 2 := by
  have h := (mnl_units d hc weights constrained).logLik x
  simp only [mnlEstimator, estimatorNone, calcLogLikelihood, sumSqOpt] at h ⊢
  have h' : (rescaled d c).choice = d.choice := rfl
  rw [h]
  have : ∑ k, (1 - 1 / c k ^ 2) * x k ^ 2 = ∑ k, x k ^ 2 - ∑ k, (x k / c k) ^ 2 := by
    rw [← Finset.sum_sub_distrib]
    refine Finset.sum_congr rfl fun k _ => ?_
    have := hc k
    field_simp
  rw [this]
  ring

end Fit

/-! ## Non-vacuity -/

/-- Minutes instead of hours: the coefficient of the example is divided by 60. -/
example (constrained : Option (List (Fin 1))) :
    UnitsFree (fun _ => 60) (mnlEstimator exFit none none constrained)
      (mnlEstimator (rescaled exFit fun _ => 60) none none constrained) :=
  mnl_units _ (by norm_num) _ _

/-- A penalty sees the change of units. -/
example : (mnlEstimator (rescaled exFit fun _ => 60) (some 1) none none).logLik (fun _ => 60 / 60) ≠
    (mnlEstimator exFit (some 1) none none).logLik fun _ => 60 := by
  rw [mnl_units_ridge exFit (c := fun _ => 60) (by norm_num) none none 1 fun _ => 60]
  simp
  norm_num

/-- A recoding that can be undone: a sum and a difference instead of two variables. -/
example : IsUnit (!![1, 1; 1, -1] : Matrix (Fin 2) (Fin 2) ℝ).det := by
  rw [Matrix.det_fin_two_of]
  norm_num

/-- Results can be stored, and stay significant after a change of units. -/
example (sf : ℝ → ℝ) : ∃ r r' : Inference 1,
    storeInference sf (fun _ => 2) !![-4] !![4] = .ok r ∧ r.stdErrs 0 = some (1 / 2) ∧
    storeInference sf (fun _ => 2 / -10) !![-400] !![400] = .ok r' ∧ r'.stdErrs 0 = some (1 / 20) ∧
    r'.pvalues 0 = r.pvalues 0 := by
  have hu : IsUnit (!![-4] : Matrix (Fin 1) (Fin 1) ℝ).det := by simp
  obtain ⟨r, h⟩ := (storeInference_total sf (fun _ => 2) !![-4] !![4]).1 hu
  have hs : r.stdErrs 0 = some (1 / 2) := by
    obtain ⟨hcov, h1, -⟩ := standard_errors h
    have hc : r.cov 0 0 = 1 / 4 := by
      have := congrFun (congrFun hcov 0) 0
      simp [Matrix.mul_apply] at this
      linarith
    obtain ⟨se, e1, e2, e3⟩ := h1 0 (by rw [hc]; norm_num)
    rw [e1]
    congr 1
    rw [hc] at e3
    nlinarith
  obtain ⟨r', h', -, -, h3⟩ := units_inference h (s := fun _ => -10) (by norm_num)
  refine ⟨r, r', h, hs, ?_, ?_, (h3 0).2.2.1⟩
  · rw [← h']
    congr 1 <;> ext i j <;> fin_cases i <;> fin_cases j <;> simp <;> norm_num
  · rw [(h3 0).1, hs]
    simp
    norm_num

end Pylogit
