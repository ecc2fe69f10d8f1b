import Verif.Model.WholeFitNested
import Verif.Model.BootstrapMle
import Verif.Model.Random

/-!
# Model of the generation of replicates from the draws of the generator to the estimates

The sampler, the tables, and the estimation of logit-type and nested logit models put together.  `scipy.optimize.minimize` and the
random number generator are parameters.
-/

namespace Pylogit

noncomputable section

/-- The keyword arguments of `fit_mle` in a call for a replicate that matter for the estimates: the method and
tolerances (an optimiser), the ridge penalty and the positions held fixed (bootstrap.py:308-315, 452-459, and the
`mnl_fit_kwargs` of the caller). -/
structure PointOptions where
  solver : Solver
  ridge : Option ℝ
  constrained : Option (List ℤ)

/-- `fit_mle(init, ..., just_point=True)` of a model of logit type: conditional_logit.py:355-418,
asym_logit.py:1003-1099, clog_log.py:697-764, scobit.py:811-906, uneven_logit.py:812-907, with
estimation.py:110-115 and `estimate`, estimation.py:649-709.  No log-likelihood is computed before the optimisation, and
nothing after it; the result is `results["x"]`.  Nested and mixed logit models are not part of this function.
Simplification as in `mnlFit` for a table without rows. -/
def pointEstimate (opts : PointOptions) (m : ChoiceModel ℝ) (init : List ℝ) : Except Err (List ℝ) := do
  let x ← rawInitVals m.cls (fitDims m) ⟨some init, none, none, none⟩
  estimationChecks (opts.ridge.map .num) (m.data.colList m.args.obsIdCol) .none
  if h : 0 < m.data.numRows then
    let obj ← logitObject m h opts.ridge
    checkInitLength m.cls (fitDims m) (m.args.interceptRefPos != .none) x
    let con ← constrainedArg obj.n opts.constrained
    let e := obj.est con
    let res ← opts.solver obj.n e.negLLAndGrad (fun k => x.getD k 0) e.negHessian
    .ok (List.ofFn res.x)
  else .error .valueError

/-- A number among the ids of a nest; the constructor has checked them, base_multinomial_cm_v2.py:1017-1055. -/
def pyNumber : PyVal ℝ → Option ℝ
  | .num a => some a
  | _ => none

/-- An entry of a nest dictionary with a string as key and a list of numbers, as nested_logit.py reads `nest_spec`; the
constructor has checked it, base_multinomial_cm_v2.py:1017-1055. -/
def decodeNest : PyVal ℝ × PyVal ℝ → Option (String × List ℝ)
  | (.str k, .list l) => (l.mapM pyNumber).map fun ids => (k, ids)
  | _ => none

/-- `NestedLogit.fit_mle(init, ..., just_point=True)`, nested_logit.py:495-557 with estimation.py:110-115 and `estimate`,
estimation.py:649-709.  Nest dictionaries the constructor rejects give `TypeError` here; no model has one.
Simplification as in `mnlFit` for a table without rows. -/
def pointNested (opts : PointOptions) (m : ChoiceModel ℝ) (init : List ℝ) : Except Err (List ℝ) :=
  match m.args.nestSpec.bind fun l => l.mapM decodeNest with
  | none => .error .typeError
  | some ns => do
    let x ← initPlain ⟨some init, none, none, none⟩
    let rtn ← m.data.rowsToNests m.args.altIdCol ns
    estimationChecks (opts.ridge.map .num) (m.data.colList m.args.obsIdCol) .none
    checkInitLength .nested { fitDims m with numNests := ns.length } false x
    if h : 0 < m.data.numRows then
      let obj := nestedObject m h rtn opts.ridge
      let con ← constrainedArg obj.n (some (finalConstrainedPos ns opts.constrained))
      let e := obj.est con
      let res ← opts.solver obj.n e.negLLAndGrad (fun k => x.getD k 0) e.negHessian
      .ok (List.ofFn res.x)
    else .error .valueError

/-- What the replicate functions call; without keyword arguments, an MNL model is estimated by BFGS without penalty or
fixed positions (conditional_logit.py:306-316, bootstrap_mle.py:199-206).  Mixed logit models do not get this far, as
the replicate functions do not pass the number of draws (`bindSignature`). -/
def pointFitter (bfgs : Solver) : Fitter ℝ PointOptions where
  fit := fun m init opts => if m.cls = .nested then pointNested opts m init else pointEstimate opts m init
  noKwargs := ⟨bfgs, none, none⟩

/-- The extraction of starting values used unless the caller gives another, `extract_default_init_vals` applied to the
series of MNL estimates: bootstrap_mle.py:17-78, 291-311.  `label` turns a name into a label. -/
def defaultExtract (label : PyVal ℝ → String) (m : ChoiceModel ℝ) (names : List (PyVal ℝ)) (est : List ℝ) (n : ℕ) :
    Except Err (List ℝ) :=
  extractDefaultInitVals m.cls (modelNames label m) (allIds m.data m.args.altIdCol).length ⟨names.map label, est⟩ n

/-- `Boot.generate_bootstrap_replicates`, bootstrap.py:186-359, from the random state to the rows of
`bootstrap_replicates` and the state left. -/
def bootstrapRun (g : Rng) (env : Env ℝ) (bfgs : Solver)
    (extract : ChoiceModel ℝ → List (PyVal ℝ) → List ℝ → ℕ → Except Err (List ℝ)) (m : ChoiceModel ℝ)
    (numParams : ℕ) (mnl : MnlArgs ℝ PointOptions) (opts : PointOptions) (numSamples : ℕ) (seed : Option IntArg)
    (s : g.State) : Except Err (List (List ℝ) × g.State) := do
  let smp ← samplesRng g (m.data.val m.args.obsIdCol) (m.data.val m.args.altIdCol) (m.data.val m.args.choiceCol)
    numSamples seed s
  let reps ← generateBootstrapReplicates env (pointFitter bfgs) extract m numParams mnl opts smp.1
  .ok (reps, smp.2)

end

end Pylogit
