import Verif.Model.Buffers

/-!
# What an estimation object without memory would answer
-/

open Matrix

namespace Pylogit

variable {P : Type}

/-- The answer to one request of an estimator `e` with Fisher matrix `F`, as functions of the parameters
alone. -/
noncomputable def answerOf [DecidableEq P] (e : Estimator P) (F : (P → ℝ) → Matrix P P ℝ) :
    Request P → Answer P
  | .logLik x => .number (e.logLik x)
  | .objective x => .pair (e.negLLAndGrad x).1 (e.negLLAndGrad x).2
  | .negHessian x => .square (e.negHessian x)
  | .fisher x => .square (F x)

section Fisher

variable {R O A S I K ι : Type} [Fintype R] [Nonempty R] [Fintype O] [Fintype K] [DecidableEq K]
  [DecidableEq S] [DecidableEq I]

/-- The Fisher matrix at parameters `x` with shapes and intercepts. -/
noncomputable def fisherBothAt (T : Transform R A S I ι) (derivs : (S → ℝ) → (R → ℝ) → Derivs R S I)
    (d : FitData R O A K ι) (ridge : Option ℝ) (weights : Option (R → ℝ)) (x : S ⊕ (I ⊕ K) → ℝ) :
    Matrix (S ⊕ (I ⊕ K)) (S ⊕ (I ⊕ K)) ℝ :=
  fisherBoth (derivs (fun i => x (.inl i)) (d.design *ᵥ fun k => x (.inr (.inr k)))) d.design d.choice
    (modelProbs (fun k => x (.inr (.inr k))) d.design d.altIDs d.rowsToObs d.rowsToAlts T
      (some fun i => x (.inr (.inl i))) (some fun i => x (.inl i))) d.rowsToObs ridge
    (estWeights weights)

/-- The Fisher matrix at parameters `x` with shapes. -/
noncomputable def fisherShapeAt (T : Transform R A S I ι) (derivs : (S → ℝ) → (R → ℝ) → Derivs R S I)
    (d : FitData R O A K ι) (ridge : Option ℝ) (weights : Option (R → ℝ)) (x : S ⊕ K → ℝ) :
    Matrix (S ⊕ K) (S ⊕ K) ℝ :=
  fisherShape (derivs (fun i => x (.inl i)) (d.design *ᵥ fun k => x (.inr k))) d.design d.choice
    (modelProbs (fun k => x (.inr k)) d.design d.altIDs d.rowsToObs d.rowsToAlts T
      none (some fun i => x (.inl i))) d.rowsToObs ridge (estWeights weights)

/-- The Fisher matrix at parameters `x` with intercepts. -/
noncomputable def fisherIcptAt (T : Transform R A S I ι) (derivs : (R → ℝ) → Derivs R S I)
    (d : FitData R O A K ι) (ridge : Option ℝ) (weights : Option (R → ℝ)) (x : I ⊕ K → ℝ) :
    Matrix (I ⊕ K) (I ⊕ K) ℝ :=
  fisherIcpt (derivs (d.design *ᵥ fun k => x (.inr k))) d.design d.choice
    (modelProbs (fun k => x (.inr k)) d.design d.altIDs d.rowsToObs d.rowsToAlts T
      (some fun i => x (.inl i)) none) d.rowsToObs ridge (estWeights weights)

/-- The Fisher matrix at parameters `x` with index coefficients only. -/
noncomputable def fisherNoneAt (T : Transform R A S I ι) (derivs : (R → ℝ) → Derivs R S I)
    (d : FitData R O A K ι) (ridge : Option ℝ) (weights : Option (R → ℝ)) (x : K → ℝ) : Matrix K K ℝ :=
  fisherNone (derivs (d.design *ᵥ x)) d.design d.choice
    (modelProbs x d.design d.altIDs d.rowsToObs d.rowsToAlts T none none) d.rowsToObs ridge
    (estWeights weights)

end Fisher

/-- A program that creates an estimation object and puts a history of requests to it has no memory: from
heap `h` it answers every request by `ans`, whatever came before, and every object that was in the heap
is the same afterwards. -/
def NoMemory {R A B : Type} (prog : List (Request P) → HeapM R A B (List (Answer P)))
    (h : List (Obj R A B)) (ans : Request P → Answer P) : Prop :=
  ∀ qs, ∃ h', prog qs h = .ok (qs.map ans, h') ∧ ∀ a < h.length, h'[a]? = h[a]?

end Pylogit
