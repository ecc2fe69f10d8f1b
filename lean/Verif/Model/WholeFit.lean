import Verif.Model.Estimators
import Verif.Model.FitPredict

/-!
# Model of `fit_mle` from its arguments to the stored results

The pieces of a fit - starting values, checks, estimation object, optimisation, post-estimation results and
`store_fit_results` - put together for the multinomial logit model.  `scipy.optimize.minimize` is a parameter.
-/

open Matrix

namespace Pylogit

noncomputable section

/-- The fields of scipy's result object that the package reads, for `n` parameters. -/
structure OptReport (n : ℕ) extends OptResult (Fin n) where
  success : Bool
  message : String

/-- `scipy.optimize.minimize` with the method and tolerances of a call: it may raise. -/
abbrev Solver :=
  ∀ n : ℕ, ((Fin n → ℝ) → ℝ × (Fin n → ℝ)) → (Fin n → ℝ) → ((Fin n → ℝ) → Matrix (Fin n) (Fin n) ℝ) →
    Except Err (OptReport n)

/-- The arguments of `fit_mle` of a multinomial logit model (conditional_logit.py:306-355) that matter for its
results.  Simplification: `ridge` is a number or `None`. -/
structure FitArgs where
  init : InitArgs ℝ
  ridge : Option ℝ
  constrained : Option (List ℤ)
  justPoint : Bool

/-- One position of the index list of `neg_gradient[self.constrained_pos] = 0`, estimation.py:217-218: negative
positions count from the end. -/
def arrayPos (n : ℕ) (z : ℤ) : Except Err (Fin n) :=
  let i := if z < 0 then z + n else z
  if h : 0 ≤ i ∧ i < n then .ok ⟨i.toNat, by have := h.1; have := h.2; omega⟩ else .error .indexError

/-- `constrained_pos` as positions of the parameter array.  Simplification: a position outside the array raises
when the optimiser first calls the objective (scipy always does); here it raises before. -/
def constrainedArg (n : ℕ) : Option (List ℤ) → Except Err (Option (List (Fin n)))
  | none => .ok none
  | some l => do
    let ps ← l.mapM (arrayPos n)
    return some ps

/-- The data of an estimation object, estimation.py:95-108: the design and the ids and choices of the model
object, and `get_mappings_for_fit`, base_multinomial_cm_v2.py:920-951, of its table. -/
def modelFitData (m : ChoiceModel ℝ) :
    FitData (Fin m.data.numRows) (Fin (originalOrderUniqueIds (m.data.colList m.args.obsIdCol)).length)
      (Fin (npSort (npUnique (m.data.colList m.args.altIdCol))).length) (Fin m.design.length) ℝ where
  design := Matrix.of fun r k => m.design[k] r
  altIDs := m.data.val m.args.altIdCol
  rowsToObs := m.data.rowsToObs m.args.obsIdCol
  rowsToAlts := m.data.rowsToAlts m.args.altIdCol
  choice := m.data.val m.args.choiceCol

/-- An estimation object, estimation.py:230-417: number of parameters, what the optimiser
calls (given the constrained positions), and `convenience_calc_fisher_approx`, estimation.py:393-417. -/
structure LogitObject where
  n : ℕ
  est : Option (List (Fin n)) → Estimator (Fin n)
  fisher : (Fin n → ℝ) → Matrix (Fin n) (Fin n) ℝ

/-- `MNLEstimator`, conditional_logit.py:127-218, for the model `m`.  `fit_mle` passes no weights, and the
constructor makes them ones, estimation.py:127-128. -/
def mnlObject (m : ChoiceModel ℝ) (hrows : 0 < m.data.numRows) (ridge : Option ℝ) : LogitObject where
  n := m.design.length
  est := mnlEstimator (modelFitData m) ridge none
  fisher := fun x =>
    haveI : Nonempty (Fin m.data.numRows) := ⟨⟨0, hrows⟩⟩
    let d := modelFitData m
    fisherNone (S := Empty) (I := Empty) mnlDerivs d.design d.choice
      (modelProbs (S := Empty) (I := Empty) x d.design d.altIDs d.rowsToObs d.rowsToAlts mnlTransform none none)
      d.rowsToObs ridge (estWeights none)

/-- `estimate` and `calc_and_store_post_estimation_results`, estimation.py:582-709 and 479-579: the
optimisation, then everything `store_fit_results` gets.  `probs` is `convenience_calc_probs`: the probabilities of the
choices and of the rows at a vector.  `x` are the starting values, of the length the object expects. -/
def runEstimationWith (solver : Solver) (m : ChoiceModel ℝ) (obj : LogitObject)
    (probs : List ℝ → Except Err
      ((Fin (originalOrderUniqueIds (m.data.colList m.args.obsIdCol)).length → ℝ) × (Fin m.data.numRows → ℝ)))
    (constrained : Option (List ℤ)) (x : List ℝ) : Except Err FitResults := do
  let con ← constrainedArg obj.n constrained
  let e := obj.est con
  let init : Fin obj.n → ℝ := fun k => x.getD k 0
  let res ← solver obj.n e.negLLAndGrad init e.negHessian
  let st := estimate (fun _ _ _ => res.toOptResult) e init
  let pr ← probs (List.ofFn res.x)
  let resid := fitResiduals (m.data.val m.args.choiceCol) pr.2
  .ok {
    n := obj.n
    split := splitParamVec m.cls (fitDims m) (List.ofFn res.x)
    gradient := st.gradient
    hessian := st.hessian
    fisher := obj.fisher res.x
    constrained := constrained
    finalLL := st.finalLL
    nullLL := st.nullLL
    rhoSq := st.rhoSq
    rhoBarSq := st.rhoBarSq
    success := res.success
    message := res.message
    chosenProbs := (List.ofFn pr.1).map fun p => [p]
    longProbs := (List.ofFn pr.2).map fun p => [p]
    residuals := (List.ofFn resid).map fun p => [p]
    indChi := (List.ofFn (individualChiSquares resid pr.2 (m.data.rowsToObs m.args.obsIdCol))).map fun p => [p] }

/-- The same for a logit-type model. -/
def runEstimation (solver : Solver) (m : ChoiceModel ℝ) (obj : LogitObject) (constrained : Option (List ℤ))
    (x : List ℝ) : Except Err FitResults :=
  runEstimationWith solver m obj (fitProbs m) constrained x

/-- `MNL.fit_mle` from the starting values to the results, conditional_logit.py:355-418 with
estimation.py:110-115.  Simplification: a table without rows raises in the maximum over the rows of the weights
(choice_calcs.py:983-985) only after the optimisation; here it raises before. -/
def mnlFit (solver : Solver) (m : ChoiceModel ℝ) (a : FitArgs) : Except Err FitResults := do
  let x ← rawInitVals .mnl (fitDims m) a.init
  estimationChecks (a.ridge.map .num) (m.data.colList m.args.obsIdCol) .none
  checkInitLength .mnl (fitDims m) false x
  if h : 0 < m.data.numRows then
    runEstimation solver m (mnlObject m h a.ridge) a.constrained x
  else .error .valueError

/-- What a call of `fit_mle` does, conditional_logit.py:404-418: with `just_point` the results are returned and
not stored. -/
def fitOutcome (justPoint : Bool) : Except Err FitResults → FitOutcome
  | .error e => .failed e
  | .ok r => if justPoint then .justPoint else .results r

/-- A call of `MNL.fit_mle` as part of a history of calls. -/
def mnlFitCall (solver : Solver) (m : ChoiceModel ℝ) (a : FitArgs) : FitCall :=
  ⟨a.ridge, fitOutcome a.justPoint (mnlFit solver m a)⟩

/-- The name attributes of a model object, base_multinomial_cm_v2.py:891-916.  `label` turns a name into the
label pandas shows for it (the identity for strings). -/
def modelNames (label : PyVal ℝ → String) (m : ChoiceModel ℝ) : NameAttrs where
  indVarNames := m.indVarNames.map label
  interceptNames := m.args.interceptNames
  shapeNames := m.args.shapeNames
  nestNames := m.args.nestSpec.map fun l => l.map fun kv => label kv.1
  mixingVars := m.args.mixingVars

/-- The model object after construction: no result attributes. -/
def freshFit (label : PyVal ℝ → String) (m : ChoiceModel ℝ) : FitState :=
  ⟨none, { names := modelNames label m }⟩

end

end Pylogit
