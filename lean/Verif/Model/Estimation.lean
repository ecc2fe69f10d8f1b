import Mathlib.Data.Matrix.Mul
import Verif.Model.Transforms
import Verif.Model.Nested
import Verif.Model.Mixed
import Verif.Model.Conversion
import Verif.Model.Results

/-!
# Model of `estimation.py` and of the `fit_mle` methods

`scipy.optimize.minimize` is a parameter.  Constrained positions are elements of the parameter
index type (the code uses integer positions).  Timing and printing are not modelled.
-/

open Matrix

namespace Pylogit

noncomputable section

variable {R O A K S I N M D P ι V : Type}

/-! ## Checks -/

/-- The `weights` argument as far as the check looks at it: `None`, something that is not an array,
or an array with its number of dimensions and its entries. -/
inductive WeightsArg where
  | none
  | notArray
  | array (ndim : ℕ) (vals : List ℝ)

/-- `ensure_positivity_and_length_of_weights`, estimation.py:19-32. -/
def checkWeights (w : WeightsArg) (numRows : ℕ) : Except Err Unit :=
  open Classical in
  match w with
  | .none => .ok ()
  | .notArray => .error .valueError
  | .array ndim vals =>
      if ndim ≠ 1 then .error .valueError
      else if vals.length ≠ numRows then .error .valueError
      else if ∃ x ∈ vals, x < 0 then .error .valueError
      else .ok ()

/-- `ensure_ridge_is_scalar_or_none`, choice_tools.py:565-584; the argument is `None`, a number or
another object. -/
def checkRidge : Option (PyVal ℝ) → Except Err Unit
  | none => .ok ()
  | some (.num _) => .ok ()
  | some _ => .error .typeError

/-- The three checks of `EstimationObj.__init__`, estimation.py:110-115, in order. -/
def estimationChecks [LinearOrder V] [AddGroup V] (ridge : Option (PyVal ℝ)) (obsIds : List V)
    (weights : WeightsArg) : Except Err Unit := do
  checkRidge ridge
  ensureContiguity obsIds
  checkWeights weights obsIds.length

/-! ## Estimators -/

/-- The part of an `EstimationObj` that `estimate` uses. -/
structure Estimator (P : Type) where
  logLik : (P → ℝ) → ℝ
  gradient : (P → ℝ) → P → ℝ
  hessian : (P → ℝ) → Matrix P P ℝ
  constrainedPos : Option (List P)

/-- `calc_neg_log_likelihood_and_neg_gradient`, estimation.py:208-220. -/
def Estimator.negLLAndGrad [DecidableEq P] (e : Estimator P) (x : P → ℝ) : ℝ × (P → ℝ) :=
  let negGrad : P → ℝ := fun i => -1 * e.gradient x i
  match e.constrainedPos with
  | none => (-1 * e.logLik x, negGrad)
  | some l => (-1 * e.logLik x, fun i => if i ∈ l then 0 else negGrad i)

/-- `calc_neg_hessian`, estimation.py:222-227. -/
def Estimator.negHessian (e : Estimator P) (x : P → ℝ) : Matrix P P ℝ :=
  (-1 : ℝ) • e.hessian x

/-- The data an estimator reads from the model object and the mappings, estimation.py:95-108. -/
structure FitData (R O A K ι : Type) where
  design : Matrix R K ℝ
  altIDs : R → ι
  rowsToObs : Matrix R O ℝ
  rowsToAlts : Matrix R A ℝ
  choice : R → ℝ

/-- `self.weights`, estimation.py:127-128. -/
def estWeights (weights : Option (R → ℝ)) : Option (R → ℝ) := some (defaultWeights weights)

section Logit

variable [Fintype R] [Fintype O] [Fintype K] [Fintype S] [Fintype I]
variable [DecidableEq S] [DecidableEq I] [DecidableEq K]

/-- `LogitTypeEstimator`, estimation.py:230-417, for parameters without shapes and intercepts (MNL,
clog-log without outside intercepts). `derivs` gives the derivative matrices at given systematic
utilities. -/
def estimatorNone (T : Transform R A S I ι) (derivs : (R → ℝ) → Derivs R S I)
    (d : FitData R O A K ι) (ridge : Option ℝ) (weights : Option (R → ℝ))
    (constrained : Option (List K)) : Estimator K where
  logLik x := calcLogLikelihood x d.design d.altIDs d.rowsToObs d.rowsToAlts d.choice T none none
    ridge (estWeights weights)
  gradient x := gradientNone (derivs (d.design *ᵥ x)) d.design d.choice
    (modelProbs x d.design d.altIDs d.rowsToObs d.rowsToAlts T none none) (estWeights weights) ridge x
  hessian x := hessianNone (derivs (d.design *ᵥ x)) d.design
    (modelProbs x d.design d.altIDs d.rowsToObs d.rowsToAlts T none none) d.rowsToObs ridge
    (estWeights weights)
  constrainedPos := constrained

/-- `LogitTypeEstimator` with outside intercepts only (clog-log). -/
def estimatorIcpt (T : Transform R A S I ι) (derivs : (R → ℝ) → Derivs R S I)
    (d : FitData R O A K ι) (ridge : Option ℝ) (weights : Option (R → ℝ))
    (constrained : Option (List (I ⊕ K))) : Estimator (I ⊕ K) where
  logLik x := calcLogLikelihood (fun k => x (.inr k)) d.design d.altIDs d.rowsToObs d.rowsToAlts
    d.choice T (some fun i => x (.inl i)) none ridge (estWeights weights)
  gradient x := gradientIcpt (derivs (d.design *ᵥ fun k => x (.inr k))) d.design d.choice
    (modelProbs (fun k => x (.inr k)) d.design d.altIDs d.rowsToObs d.rowsToAlts T
      (some fun i => x (.inl i)) none)
    (estWeights weights) ridge (fun i => x (.inl i)) (fun k => x (.inr k))
  hessian x := hessianIcpt (derivs (d.design *ᵥ fun k => x (.inr k))) d.design
    (modelProbs (fun k => x (.inr k)) d.design d.altIDs d.rowsToObs d.rowsToAlts T
      (some fun i => x (.inl i)) none) d.rowsToObs ridge (estWeights weights)
  constrainedPos := constrained

/-- `LogitTypeEstimator` with shape parameters only (asymmetric, scobit, uneven). -/
def estimatorShape (T : Transform R A S I ι) (derivs : (S → ℝ) → (R → ℝ) → Derivs R S I)
    (d : FitData R O A K ι) (ridge : Option ℝ) (weights : Option (R → ℝ))
    (constrained : Option (List (S ⊕ K))) : Estimator (S ⊕ K) where
  logLik x := calcLogLikelihood (fun k => x (.inr k)) d.design d.altIDs d.rowsToObs d.rowsToAlts
    d.choice T none (some fun i => x (.inl i)) ridge (estWeights weights)
  gradient x := gradientShape (derivs (fun i => x (.inl i)) (d.design *ᵥ fun k => x (.inr k)))
    d.design d.choice
    (modelProbs (fun k => x (.inr k)) d.design d.altIDs d.rowsToObs d.rowsToAlts T
      none (some fun i => x (.inl i)))
    (estWeights weights) ridge (fun i => x (.inl i)) (fun k => x (.inr k))
  hessian x := hessianShape (derivs (fun i => x (.inl i)) (d.design *ᵥ fun k => x (.inr k))) d.design
    (modelProbs (fun k => x (.inr k)) d.design d.altIDs d.rowsToObs d.rowsToAlts T
      none (some fun i => x (.inl i))) d.rowsToObs ridge (estWeights weights)
  constrainedPos := constrained

/-- `LogitTypeEstimator` with shape parameters and outside intercepts. -/
def estimatorBoth (T : Transform R A S I ι) (derivs : (S → ℝ) → (R → ℝ) → Derivs R S I)
    (d : FitData R O A K ι) (ridge : Option ℝ) (weights : Option (R → ℝ))
    (constrained : Option (List (S ⊕ (I ⊕ K)))) : Estimator (S ⊕ (I ⊕ K)) where
  logLik x := calcLogLikelihood (fun k => x (.inr (.inr k))) d.design d.altIDs d.rowsToObs
    d.rowsToAlts d.choice T (some fun i => x (.inr (.inl i))) (some fun i => x (.inl i)) ridge
    (estWeights weights)
  gradient x := gradientBoth
    (derivs (fun i => x (.inl i)) (d.design *ᵥ fun k => x (.inr (.inr k)))) d.design d.choice
    (modelProbs (fun k => x (.inr (.inr k))) d.design d.altIDs d.rowsToObs d.rowsToAlts T
      (some fun i => x (.inr (.inl i))) (some fun i => x (.inl i)))
    (estWeights weights) ridge (fun i => x (.inl i)) (fun i => x (.inr (.inl i)))
    (fun k => x (.inr (.inr k)))
  hessian x := hessianBoth
    (derivs (fun i => x (.inl i)) (d.design *ᵥ fun k => x (.inr (.inr k)))) d.design
    (modelProbs (fun k => x (.inr (.inr k))) d.design d.altIDs d.rowsToObs d.rowsToAlts T
      (some fun i => x (.inr (.inl i))) (some fun i => x (.inl i))) d.rowsToObs ridge
    (estWeights weights)
  constrainedPos := constrained

/-- `MNLEstimator`, conditional_logit.py:127-218. -/
def mnlEstimator [DecidableEq R] (d : FitData R O A K ι) (ridge : Option ℝ)
    (weights : Option (R → ℝ)) (constrained : Option (List K)) : Estimator K :=
  estimatorNone (S := Empty) (I := Empty) mnlTransform (fun _ => mnlDerivs) d ridge weights
    constrained

end Logit

/-- The Hessian correction for constrained positions, nested_logit.py:311-319,
mixed_logit.py:348-356. -/
def maskOpt [DecidableEq P] (H : Matrix P P ℝ) : Option (List P) → Matrix P P ℝ
  | none => H
  | some l => maskHessian H l

/-- `NestedEstimator`, nested_logit.py:109-336. -/
def nestedEstimator [Fintype R] [Nonempty R] [Fintype O] [Fintype K] [Fintype N]
    [DecidableEq N] [DecidableEq K] (d : FitData R O A K ι) (rowsToNests : Matrix R N ℝ)
    (ridge : Option ℝ) (weights : Option (R → ℝ)) (constrained : Option (List (N ⊕ K))) :
    Estimator (N ⊕ K) where
  logLik x := calcNestedLogLikelihood (naturalizeNestCoefs fun m => x (.inl m)) (fun k => x (.inr k))
    d.design d.rowsToObs rowsToNests d.choice ridge (estWeights weights)
  gradient x := calcNestedGradient (fun m => x (.inl m)) (fun k => x (.inr k)) d.design d.choice
    d.rowsToObs rowsToNests ridge (estWeights weights) true
  hessian x := maskOpt (calcNestedBHHH (fun m => x (.inl m)) (fun k => x (.inr k)) d.design d.choice
    d.rowsToObs rowsToNests ridge (estWeights weights) true) constrained
  constrainedPos := constrained

/-- `MixedEstimator`, mixed_logit.py:171-375. -/
def mixedEstimator [Fintype R] [Nonempty R] [Fintype O] [Fintype M] [Fintype D] [Fintype P]
    [DecidableEq P] (design3d : R → D → P → ℝ) (rowsToObs : Matrix R O ℝ)
    (rowsToMixers : Matrix R M ℝ) (choice : R → ℝ) (ridge : Option ℝ) (weights : Option (R → ℝ))
    (constrained : Option (List P)) : Estimator P where
  logLik x := mixedLogLikelihood x design3d rowsToObs rowsToMixers choice ridge (estWeights weights)
  gradient x := mixedGradient x design3d rowsToObs rowsToMixers choice ridge (estWeights weights)
  hessian x := maskOpt (mixedBHHH x design3d rowsToObs rowsToMixers choice ridge
    (estWeights weights)) constrained
  constrainedPos := constrained

/-! ## Estimation -/

/-- The two fields of scipy's result object that the code reads. -/
structure OptResult (P : Type) where
  x : P → ℝ
  fun_ : ℝ

/-- `scipy.optimize.minimize(fun, x0, method, jac=True, hess=hess, ...)`: the objective returns its
value and gradient. -/
abbrev Minimizer (P : Type) :=
  ((P → ℝ) → ℝ × (P → ℝ)) → (P → ℝ) → ((P → ℝ) → Matrix P P ℝ) → OptResult P

/-- `calc_rho_and_rho_bar_squared`, estimation.py:450-476. -/
def rhoSquared (finalLL nullLL : ℝ) : ℝ := 1 - finalLL / nullLL

/-- `calc_rho_and_rho_bar_squared`, estimation.py:473-474. -/
def rhoBarSquared (finalLL nullLL : ℝ) (numParams : ℕ) : ℝ := 1 - (finalLL - numParams) / nullLL

/-- `calc_individual_chi_squares`, estimation.py:420-447, for one column of probabilities. -/
def individualChiSquares [Fintype R] (residuals longProbs : R → ℝ) (rowsToObs : Matrix R O ℝ) :
    O → ℝ :=
  rowsToObsᵀ *ᵥ fun r => residuals r ^ 2 / longProbs r

/-- `residuals`, estimation.py:547-550, for one column. -/
def fitResiduals (choice longProbs : R → ℝ) : R → ℝ := fun r => choice r - longProbs r

/-- The scalar results `estimate` stores, estimation.py:523-525, 558-563, 704. -/
structure FitStats (P : Type) where
  params : P → ℝ
  finalLL : ℝ
  nullLL : ℝ
  rhoSq : ℝ
  rhoBarSq : ℝ
  gradient : P → ℝ
  hessian : Matrix P P ℝ

/-- `estimate` with `calc_and_store_post_estimation_results`, estimation.py:582-709 and 479-579
(scalar results, gradient and Hessian).  The zero vector is `np.zeros(init_vals.shape)`. -/
def estimate [Fintype P] [DecidableEq P] (minimize : Minimizer P) (e : Estimator P) (init : P → ℝ) :
    FitStats P :=
  let nullLL := e.logLik fun _ => 0
  let res := minimize e.negLLAndGrad init e.negHessian
  let finalLL := -1 * res.fun_
  { params := res.x
    finalLL := finalLL
    nullLL := nullLL
    rhoSq := rhoSquared finalLL nullLL
    rhoBarSq := rhoBarSquared finalLL nullLL (Fintype.card P)
    gradient := e.gradient res.x
    hessian := e.hessian res.x }

/-- `fit_mle` of all seven models from the estimation object on.  Each `fit_mle` has `**kwargs` and
builds its estimator without passing weights (conditional_logit.py:381-386,
asym_logit.py:1071-1076, clog_log.py:736-741, scobit.py:878-883, uneven_logit.py:879-884,
nested_logit.py:527-534, mixed_logit.py:592-597), so a `weights` keyword is accepted and dropped.
`mk` builds the estimator from the weights argument of its constructor. -/
def fitMle [Fintype P] [DecidableEq P] (minimize : Minimizer P)
    (mk : Option (R → ℝ) → Estimator P) (_weightsKwarg : Option (R → ℝ)) (init : P → ℝ) :
    FitStats P :=
  estimate minimize (mk none) init

end

end Pylogit
