import Verif.Model.WholeFit

/-!
# Model of `fit_mle` of the logit-type models with outside intercepts or shapes

The same pieces as in `Verif.Model.WholeFit`, for the clog-log, scobit, uneven and asymmetric logit models too.
-/

open Matrix

namespace Pylogit

noncomputable section

variable {R O A S I K P ι : Type} {n k : ℕ}

/-- An estimator whose parameters are given by their positions in one vector: `split_params` in the calls of the
`convenience_*` methods, and the concatenation of the parts of gradient and Hessian (choice_calcs.py:432-451,
761-785), for parts in the order `e`. -/
def Estimator.reindex (e : P ≃ Fin n) (est : Estimator P) : Estimator (Fin n) where
  logLik x := est.logLik (x ∘ e)
  gradient x i := est.gradient (x ∘ e) (e.symm i)
  hessian x := (est.hessian (x ∘ e)).submatrix e.symm e.symm
  constrainedPos := est.constrainedPos.map fun l => l.map e

/-- The estimation object of an estimator with parts, and its Fisher information (choice_calcs.py:958-1002). -/
def LogitObject.ofParts (e : P ≃ Fin n) (est : Option (List P) → Estimator P) (fisher : (P → ℝ) → Matrix P P ℝ) :
    LogitObject where
  n := n
  est := fun con => (est (con.map fun l => l.map e.symm)).reindex e
  fisher := fun x => (fisher (x ∘ e)).submatrix e.symm e.symm

/-- Two parts of a vector, one after the other. -/
def twoParts (s k : ℕ) : Fin s ⊕ Fin k ≃ Fin (s + k) := finSumFinEquiv

/-- Shapes, then outside intercepts, then index coefficients. -/
def threeParts (s i k : ℕ) : Fin s ⊕ (Fin i ⊕ Fin k) ≃ Fin (s + (i + k)) :=
  (Equiv.sumCongr (Equiv.refl _) finSumFinEquiv).trans finSumFinEquiv

section Fisher

variable [Fintype R] [Nonempty R] [Fintype O] [Fintype K] [DecidableEq S] [DecidableEq I] [DecidableEq K]

/-- `convenience_calc_fisher_approx`, estimation.py:393-417, with shapes and outside intercepts. -/
def fisherOfBoth (T : Transform R A S I ι) (derivs : (S → ℝ) → (R → ℝ) → Derivs R S I) (d : FitData R O A K ι)
    (ridge : Option ℝ) (x : S ⊕ (I ⊕ K) → ℝ) : Matrix (S ⊕ (I ⊕ K)) (S ⊕ (I ⊕ K)) ℝ :=
  fisherBoth (derivs (fun i => x (.inl i)) (d.design *ᵥ fun k => x (.inr (.inr k)))) d.design d.choice
    (modelProbs (fun k => x (.inr (.inr k))) d.design d.altIDs d.rowsToObs d.rowsToAlts T
      (some fun i => x (.inr (.inl i))) (some fun i => x (.inl i)))
    d.rowsToObs ridge (estWeights none)

/-- `convenience_calc_fisher_approx`, estimation.py:393-417, with shapes only. -/
def fisherOfShape (T : Transform R A S I ι) (derivs : (S → ℝ) → (R → ℝ) → Derivs R S I) (d : FitData R O A K ι)
    (ridge : Option ℝ) (x : S ⊕ K → ℝ) : Matrix (S ⊕ K) (S ⊕ K) ℝ :=
  fisherShape (derivs (fun i => x (.inl i)) (d.design *ᵥ fun k => x (.inr k))) d.design d.choice
    (modelProbs (fun k => x (.inr k)) d.design d.altIDs d.rowsToObs d.rowsToAlts T none (some fun i => x (.inl i)))
    d.rowsToObs ridge (estWeights none)

/-- `convenience_calc_fisher_approx`, estimation.py:393-417, with outside intercepts only. -/
def fisherOfIcpt (T : Transform R A S I ι) (derivs : (R → ℝ) → Derivs R S I) (d : FitData R O A K ι)
    (ridge : Option ℝ) (x : I ⊕ K → ℝ) : Matrix (I ⊕ K) (I ⊕ K) ℝ :=
  fisherIcpt (derivs (d.design *ᵥ fun k => x (.inr k))) d.design d.choice
    (modelProbs (fun k => x (.inr k)) d.design d.altIDs d.rowsToObs d.rowsToAlts T (some fun i => x (.inl i)) none)
    d.rowsToObs ridge (estWeights none)

/-- `convenience_calc_fisher_approx`, estimation.py:393-417, with index coefficients only. -/
def fisherOfNone (T : Transform R A S I ι) (derivs : (R → ℝ) → Derivs R S I) (d : FitData R O A K ι)
    (ridge : Option ℝ) (x : K → ℝ) : Matrix K K ℝ :=
  fisherNone (derivs (d.design *ᵥ x)) d.design d.choice
    (modelProbs x d.design d.altIDs d.rowsToObs d.rowsToAlts T none none) d.rowsToObs ridge (estWeights none)

end Fisher

/-- `modelFitData` for a table whose alternatives are known to be `n + 1`. -/
def altsFitData (m : ChoiceModel ℝ) (h : (npSort (npUnique (m.data.colList m.args.altIdCol))).length = n + 1) :
    FitData (Fin m.data.numRows) (Fin (originalOrderUniqueIds (m.data.colList m.args.obsIdCol)).length)
      (Fin (n + 1)) (Fin m.design.length) ℝ where
  design := (modelFitData m).design
  altIDs := (modelFitData m).altIDs
  rowsToObs := (modelFitData m).rowsToObs
  rowsToAlts := Matrix.of fun r j => (modelFitData m).rowsToAlts r (Fin.cast h.symm j)
  choice := (modelFitData m).choice

/-- The reference position of the outside intercepts as `create_calc_dh_d_alpha` uses it (asym_logit.py:692-700 and
the same lines of the other models): `None`, or a position that must be in `range(num_alts)`.  With a single
alternative no intercept is left, and `split_param_vec` gives `None` for the intercepts. -/
def outsideRef (n : ℕ) : PyRef → Except Err (Option (Fin (n + 1)))
  | .none => .ok none
  | .int z =>
    if h : 0 ≤ z ∧ z ≤ n then
      .ok (if n = 0 then none else some ⟨z.toNat, by have := h.1; have := h.2; omega⟩)
    else .error .valueError
  | .other => .error .valueError

/-- The reference position of the shapes of the asymmetric model in `_convert_eta_to_c`, asym_logit.py:158-160.
Simplification: a bad position raises when the objective is first evaluated; here it raises before. -/
def etaRef (n : ℕ) : PyRef → Except Err (Fin (n + 1))
  | .int z => if h : 0 ≤ z ∧ z ≤ n then .ok ⟨z.toNat, by have := h.1; have := h.2; omega⟩ else .error .valueError
  | _ => .error .valueError

section Objects

variable [Fintype R] [DecidableEq R] [Nonempty R] [Fintype O]

/-- `ClogEstimator`, clog_log.py:344-508, after `set_derivatives`. -/
def clogObject (d : FitData R O (Fin (n + 1)) (Fin k) ι) (ridge : Option ℝ) : Option (Fin (n + 1)) → LogitObject
  | none => .ofParts (Equiv.refl _) (clogEstimatorPlain 0 d ridge none)
      (fisherOfNone (S := Empty) (clogTransform (some 0)) (clogDerivs 0 d.rowsToAlts) d ridge)
  | some ref => .ofParts (twoParts n k) (clogEstimator ref d ridge none)
      (fisherOfIcpt (S := Empty) (clogTransform (some ref)) (clogDerivs ref d.rowsToAlts) d ridge)

/-- `ScobitEstimator`, scobit.py:422-617, after `set_derivatives`. -/
def scobitObject (d : FitData R O (Fin (n + 1)) (Fin k) ι) (ridge : Option ℝ) : Option (Fin (n + 1)) → LogitObject
  | none => .ofParts (twoParts (n + 1) k) (scobitEstimatorPlain 0 d ridge none)
      (fisherOfShape (scobitTransform (some 0)) (scobitDerivs 0 d.rowsToAlts) d ridge)
  | some ref => .ofParts (threeParts (n + 1) n k) (scobitEstimator ref d ridge none)
      (fisherOfBoth (scobitTransform (some ref)) (scobitDerivs ref d.rowsToAlts) d ridge)

/-- `UnevenEstimator`, uneven_logit.py:422-617, after `set_derivatives`. -/
def unevenObject (d : FitData R O (Fin (n + 1)) (Fin k) ι) (ridge : Option ℝ) : Option (Fin (n + 1)) → LogitObject
  | none => .ofParts (twoParts (n + 1) k) (unevenEstimatorPlain 0 d ridge none)
      (fisherOfShape (unevenTransform (some 0)) (unevenDerivs 0 d.rowsToAlts) d ridge)
  | some ref => .ofParts (threeParts (n + 1) n k) (unevenEstimator ref d ridge none)
      (fisherOfBoth (unevenTransform (some ref)) (unevenDerivs ref d.rowsToAlts) d ridge)

/-- `AsymEstimator`, asym_logit.py:710-801, after `set_derivatives`. -/
def asymObject (sref : Fin (n + 1)) (d : FitData R O (Fin (n + 1)) (Fin k) ι) (ridge : Option ℝ) :
    Option (Fin (n + 1)) → LogitObject
  | none => .ofParts (twoParts n k) (asymEstimatorPlain sref 0 d ridge none)
      (fisherOfShape (asymTransform sref (some 0)) (asymDerivs sref 0 d.rowsToAlts) d ridge)
  | some ref => .ofParts (threeParts n n k) (asymEstimator sref ref d ridge none)
      (fisherOfBoth (asymTransform sref (some ref)) (asymDerivs sref ref d.rowsToAlts) d ridge)

end Objects

/-- The estimation object `fit_mle` makes for a model of logit type: conditional_logit.py:376-388,
asym_logit.py:1056-1078, clog_log.py:727-743, scobit.py:863-885, uneven_logit.py:864-886.  The nested and mixed
logit models have others (`Verif.Model.Nested`, `Verif.Model.Mixed`), not part of this model. -/
def logitObject (m : ChoiceModel ℝ) (hrows : 0 < m.data.numRows) (ridge : Option ℝ) : Except Err LogitObject :=
  haveI : Nonempty (Fin m.data.numRows) := ⟨⟨0, hrows⟩⟩
  match m.cls, hA : (npSort (npUnique (m.data.colList m.args.altIdCol))).length with
  | .mnl, _ => .ok (mnlObject m hrows ridge)
  | .nested, _ => .error .notImplementedError
  | .mixed, _ => .error .notImplementedError
  | _, 0 => .error .valueError
  | .cloglog, n + 1 => do
    let ref ← outsideRef n m.args.interceptRefPos
    return clogObject (altsFitData m hA) ridge ref
  | .scobit, n + 1 => do
    let ref ← outsideRef n m.args.interceptRefPos
    return scobitObject (altsFitData m hA) ridge ref
  | .uneven, n + 1 => do
    let ref ← outsideRef n m.args.interceptRefPos
    return unevenObject (altsFitData m hA) ridge ref
  | .asym, n + 1 => do
    let ref ← outsideRef n m.args.interceptRefPos
    let sref ← etaRef n m.args.shapeRefPos
    return asymObject sref (altsFitData m hA) ridge ref

/-- `fit_mle` of a model of logit type from the starting values to the results: conditional_logit.py:355-418,
asym_logit.py:1003-1099, clog_log.py:697-764, scobit.py:811-906, uneven_logit.py:812-907, with estimation.py:110-115.
Simplification as in `mnlFit` for a table without rows. -/
def logitFit (solver : Solver) (m : ChoiceModel ℝ) (a : FitArgs) : Except Err FitResults := do
  let x ← rawInitVals m.cls (fitDims m) a.init
  estimationChecks (a.ridge.map .num) (m.data.colList m.args.obsIdCol) .none
  if h : 0 < m.data.numRows then
    let obj ← logitObject m h a.ridge
    checkInitLength m.cls (fitDims m) (m.args.interceptRefPos != .none) x
    runEstimation solver m obj a.constrained x
  else .error .valueError

/-- A call of `fit_mle` as part of a history of calls. -/
def logitFitCall (solver : Solver) (m : ChoiceModel ℝ) (a : FitArgs) : FitCall :=
  ⟨a.ridge, fitOutcome a.justPoint (logitFit solver m a)⟩

end

end Pylogit
