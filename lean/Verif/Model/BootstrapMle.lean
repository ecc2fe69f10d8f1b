import Mathlib.Analysis.SpecialFunctions.Log.Basic
import Verif.Model.Construct
import Verif.Model.Results
import Verif.Model.Sampler

/-!
# Model of the estimation of replicates: `bootstrap_mle.py` and `bootstrap.py`

A two-dimensional array of replicates is the list of its columns (`replicates[:, a:b].T` is then the
sublist of columns `a` to `b`), so that the functions below work on a list with one entry per parameter.
-/

namespace Pylogit

/-! ## Parameter names and parameter lists -/

section Lists

variable {W : Type}

/-- `get_param_names`, bootstrap.py:49-78. -/
def getParamNames (a : NameAttrs) : List String :=
  let allNames := a.indVarNames
  let allNames := match a.interceptNames with | some l => l ++ allNames | none => allNames
  let allNames := match a.shapeNames with | some l => l ++ allNames | none => allNames
  match a.nestNames with | some l => l ++ allNames | none => allNames

/-- `0 if names is None else len(names)`, bootstrap.py:117-125. -/
def numNames (names : Option (List String)) : ℕ :=
  match names with
  | none => 0
  | some l => l.length

/-- The loop of `get_param_list_for_prediction`, bootstrap.py:131-137.  A slice beyond the array is cut
off. -/
def paramListLoop (reps : List W) : List ℕ → ℕ → List (Option (List W)) → List (Option (List W))
  | [], _, acc => acc
  | k :: ks, cur, acc =>
    if k = 0 then paramListLoop reps ks cur (none :: acc)
    else paramListLoop reps ks (cur + k) (some (midSlice cur k reps) :: acc)

/-- `get_param_list_for_prediction`, bootstrap.py:81-138, after the check that `replicates` is a
two-dimensional array. -/
def getParamListForPrediction (a : NameAttrs) (reps : List W) : List (Option (List W)) :=
  paramListLoop reps
    [numNames a.nestNames, numNames a.shapeNames, numNames a.interceptNames, a.indVarNames.length] 0 []

/-- `Boot.__init__`, bootstrap.py:162-184: the parameter series. -/
def bootInit (a : NameAttrs) (mle : List W) : Except Err (Series W) := mkSeries mle (getParamNames a)

end Lists

/-! ## Starting values -/

noncomputable section

/-- `series.loc[names].values`: every entry carrying the label, label by label; `KeyError` for a label
that does not occur. -/
def locSeries (s : Series ℝ) (names : List String) : Except Err (List ℝ) := do
  let parts ← names.mapM fun n =>
    let hits := ((s.index.zip s.values).filter fun p => p.1 = n).map Prod.snd
    if hits = [] then (.error .keyError : Except Err (List ℝ)) else .ok hits
  .ok parts.flatten

/-- `init_vals[-1 * k:] = x` for `init_vals = np.zeros(n)` and `k = len(x)`, bootstrap_mle.py:38, 73-74.
For `k = 0` the slice is the whole array and assigning an empty array to it fails unless it is empty;
for `k > n` the slice is clamped to the array, and only an array of length one can be broadcast. -/
def assignTail (n : ℕ) (x : List ℝ) : Except Err (List ℝ) :=
  let k := x.length
  if k = 0 then (if n = 0 then .ok [] else .error .valueError)
  else if k ≤ n then .ok (List.replicate (n - k) 0 ++ x)
  else if k = 1 then .ok []
  else .error .valueError

/-- `extract_default_init_vals`, bootstrap_mle.py:17-78.  `numAlts` is `len(np.unique(alt_IDs))`.
Division by `log 1` (one alternative) gives infinities in the code. -/
def extractDefaultInitVals (m : ModelType) (a : NameAttrs) (numAlts : ℕ) (mnl : Series ℝ)
    (numParams : ℕ) : Except Err (List ℝ) := do
  let (coefs, icpts) ← (match a.interceptNames with
    | none => .ok (mnl.values, none)
    | some names => do
      let c ← locSeries mnl a.indVarNames
      let i ← locSeries mnl names
      .ok (c, some i) : Except Err (List ℝ × Option (List ℝ)))
  let coefs := match a.mixingVars with
    | none => coefs
    | some mv => coefs ++ List.replicate mv.length 0
  let coefs := if m = .asym then coefs.map fun x => x / Real.log numAlts else coefs
  let coefs := match icpts with
    | none => coefs
    | some i => i ++ coefs
  assignTail numParams coefs

end

/-! ## Point estimates on new data -/

section Replicates

variable {V : Type} [LinearOrder V] [MulZeroOneClass V]

/-- What the estimation of replicates calls and the model does not contain: `fit_mle(init, **kwargs)`
of a model object with `just_point=True` (the estimates) for a type `κ` of keyword arguments; `noKwargs`
stands for `{}`. -/
structure Fitter (V κ : Type) where
  fit : ChoiceModel V → List V → κ → Except Err (List V)
  noKwargs : κ

/-- The MNL arguments of the replicate functions: specification and names of `mnl_obj`, starting values
and keyword arguments, each possibly `None`. -/
structure MnlArgs (V κ : Type) where
  spec : Option (List (String × PyVal V))
  names : Option (List (String × PyVal V))
  init : Option (List V)
  kwargs : Option κ

variable {κ : Type}

/-- `get_mnl_point_est`, bootstrap_mle.py:139-222.  Starting values `None` reach `fit_mle`, which fails
on `None.shape`; keyword arguments `None` fail on item assignment; a missing specification fails when it
is iterated over. -/
def getMnlPointEst (env : Env V) (F : Fitter V κ) (orig : ChoiceModel V) (df : Frame V)
    (idCol : String) (numParams : ℕ) (mnl : MnlArgs V κ) :
    Except Err (List V × ChoiceModel V) := do
  let isMnl := orig.displayName = displayNameOf "MNL"
  let spec := if isMnl then some orig.args.specification else mnl.spec
  let names := if isMnl then orig.args.names else mnl.names
  let init := if isMnl ∧ mnl.init = none then some (List.replicate numParams 0) else mnl.init
  let kwargs := if isMnl ∧ mnl.kwargs.isNone then some F.noKwargs else mnl.kwargs
  match kwargs with
  | none => .error .typeError
  | some kw =>
    match spec with
    | none => .error .typeError
    | some spec => do
      let obj ← createChoiceModel env "MNL" df
        { altIdCol := orig.args.altIdCol, obsIdCol := idCol, choiceCol := orig.args.choiceCol,
          specification := spec, names := names, interceptRefPos := .none, shapeRefPos := .none,
          interceptNames := none, shapeNames := none, nestSpec := none, mixingIdCol := none,
          mixingVars := none }
      match init with
      | none => .error .attributeError
      | some x0 => do
        let est ← F.fit obj x0 kw
        .ok (est, obj)

/-- `retrieve_point_est`, bootstrap_mle.py:225-338.  `extract` is the extraction function in use, given
the names and the estimates of the MNL model. -/
def retrievePointEst (env : Env V) (F : Fitter V κ)
    (extract : ChoiceModel V → List (PyVal V) → List V → ℕ → Except Err (List V))
    (orig : ChoiceModel V) (df : Frame V) (idCol : String) (numParams : ℕ) (mnl : MnlArgs V κ)
    (fitKwargs : κ) : Except Err (List V) := do
  let (est, obj) ← getMnlPointEst env F orig df idCol numParams mnl
  if est.length ≠ obj.indVarNames.length then .error .valueError
  else if orig.displayName = displayNameOf "MNL" then .ok est
  else do
    let init ← extract orig obj.indVarNames est numParams
    let newObj ← recreate env orig idCol df
    F.fit newObj init fitKwargs

/-- `array[row] = x` for an array with `n` columns: `x` must have `n` entries, or one, which is
repeated. -/
def assignRow (n : ℕ) (x : List V) : Except Err (List V) :=
  if x.length = n then .ok x
  else match x with
    | [a] => .ok (List.replicate n a)
    | _ => .error .valueError

/-- The rows of the array of replicates estimated on the given tables: the loops at bootstrap.py:327-350
and 474-490. -/
def replicatesOn (env : Env V) (F : Fitter V κ)
    (extract : ChoiceModel V → List (PyVal V) → List V → ℕ → Except Err (List V))
    (orig : ChoiceModel V) (idCol : String) (numParams : ℕ) (mnl : MnlArgs V κ) (fitKwargs : κ)
    (frames : List (Frame V)) : Except Err (List (List V)) :=
  frames.mapM fun df => do
    let x ← retrievePointEst env F extract orig df idCol numParams mnl fitKwargs
    assignRow numParams x

/-- `generate_jackknife_replicates`, bootstrap.py:361-498. -/
def generateJackknifeReplicates (env : Env V) (F : Fitter V κ)
    (extract : ChoiceModel V → List (PyVal V) → List V → ℕ → Except Err (List V))
    (orig : ChoiceModel V) (numParams : ℕ) (mnl : MnlArgs V κ) (fitKwargs : κ) :
    Except Err (List (List V)) :=
  replicatesOn env F extract orig orig.args.obsIdCol numParams mnl fitKwargs
    (jackknifeFrames orig.data orig.args.obsIdCol)

/-- `generate_bootstrap_replicates`, bootstrap.py:186-359, for the given samples of observation ids
(`create_cross_sectional_bootstrap_samples`).  The tables are created inside the loop in the code; as no
table depends on an estimate, creating them first only changes which of two exceptions is raised. -/
def generateBootstrapReplicates [NatCast V] (env : Env V) (F : Fitter V κ)
    (extract : ChoiceModel V → List (PyVal V) → List V → ℕ → Except Err (List V))
    (orig : ChoiceModel V) (numParams : ℕ) (mnl : MnlArgs V κ) (fitKwargs : κ)
    (samples : List (List V)) : Except Err (List (List V)) := do
  let frames ← bootstrapFrames orig.data orig.args.obsIdCol samples
  replicatesOn env F extract orig "bootstrap_id" numParams mnl fitKwargs frames

/-- `fit_kwargs` of the replicate functions, bootstrap.py:308-315 and 452-459: fixed keys, the values the
caller gives. -/
def replicateFitKwargs (printRes method lossTol gradientTol maxiter ridge constrainedPos : PyVal V)
    (justPoint : PyVal V) : List (String × PyVal V) :=
  [("print_res", printRes), ("method", method), ("loss_tol", lossTol), ("gradient_tol", gradientTol),
    ("maxiter", maxiter), ("ridge", ridge), ("constrained_pos", constrainedPos),
    ("just_point", justPoint)]

/-- The binding of keyword arguments to the parameters of `fit_mle`: `MixedLogit.fit_mle`
(mixed_logit.py:491-503) has a second parameter `num_draws` without a default; the other classes have
defaults for all but `init_vals`. -/
def bindSignature (F : Fitter V (List (String × PyVal V))) : Fitter V (List (String × PyVal V)) where
  fit := fun m init kw =>
    if m.cls = .mixed ∧ "num_draws" ∉ kw.map Prod.fst then .error .typeError else F.fit m init kw
  noKwargs := []

/-- `ensure_replicates_kwarg_validity`, bootstrap.py:141-149. -/
def ensureReplicatesKwarg (s : String) : Except Err Unit :=
  if s ∉ ["bootstrap", "jackknife"] then .error .valueError else .ok ()

end Replicates

end Pylogit
