import Verif.Model.BootstrapMle
import Verif.Model.FitStore
import Verif.Model.WholeFit

/-!
# Model of the dictionary of keyword arguments shared by all replicates

`generate_bootstrap_replicates` and `generate_jackknife_replicates` hand the caller's dictionary
`mnl_fit_kwargs` itself to `get_mnl_point_est`, which changes it.  The functions here return, besides
their result, the caller's dictionary as they leave it, whether they succeed or raise.
-/

namespace Pylogit

/-- A dictionary of keyword arguments, in insertion order. -/
abbrev Kwargs (V : Type) := List (String × PyVal V)

section Dict

variable {V : Type}

/-- `d[k] = v`: replaces the value of an existing key where it stands, appends a new key. -/
def kwSet (d : Kwargs V) (k : String) (v : PyVal V) : Kwargs V :=
  if k ∈ d.map Prod.fst then d.map fun p => if p.1 = k then (k, v) else p else d ++ [(k, v)]

/-- `d.get(k)`. -/
def kwGet (d : Kwargs V) (k : String) : Option (PyVal V) :=
  (d.find? fun p => p.1 = k).map Prod.snd

/-- The assignments at bootstrap_mle.py:204-209.  `True` is the integer 1. -/
def pointKwargs [One V] (d : Kwargs V) : Kwargs V :=
  let d := kwSet d "just_point" (.num 1)
  if "method" ∉ d.map Prod.fst then kwSet d "method" (.str "BFGS") else d

/-- Truth of a Python value, as in `if just_point:`.  Simplification: objects outside the model count as
true, as Python objects do by default. -/
def truthy [Zero V] [DecidableEq V] : PyVal V → Bool
  | .str s => s ≠ ""
  | .num a => a ≠ 0
  | .list l => l.length ≠ 0
  | .other => true

/-- The `just_point` parameter of `fit_mle(init_vals, **d)`, whose default is `False`:
conditional_logit.py:305-315, with `if not just_point` at conditional_logit.py:403. -/
def justPointOf [Zero V] [DecidableEq V] (d : Kwargs V) : Bool :=
  match kwGet d "just_point" with
  | some v => truthy v
  | none => false

end Dict

section Replicates

variable {V : Type} [LinearOrder V] [MulZeroOneClass V]

/-- `get_mnl_point_est`, bootstrap_mle.py:139-222, with the dictionary `mnl_fit_kwargs` the caller holds
as a second result.  For an MNL model `None` is replaced by a new dictionary the caller does not see. -/
def getMnlPointEstShared (env : Env V) (F : Fitter V (Kwargs V)) (orig : ChoiceModel V) (df : Frame V)
    (idCol : String) (numParams : ℕ) (mnl : MnlArgs V (Kwargs V)) :
    Except Err (List V × ChoiceModel V) × Option (Kwargs V) :=
  let isMnl := orig.displayName = displayNameOf "MNL"
  let spec := if isMnl then some orig.args.specification else mnl.spec
  let names := if isMnl then orig.args.names else mnl.names
  let init := if isMnl ∧ mnl.init = none then some (List.replicate numParams 0) else mnl.init
  let kwargs := if isMnl ∧ mnl.kwargs.isNone then some [] else mnl.kwargs
  match kwargs with
  | none => (.error .typeError, mnl.kwargs)
  | some kw =>
    let kw := pointKwargs kw
    let left := mnl.kwargs.map fun _ => kw
    let res : Except Err (List V × ChoiceModel V) :=
      match spec with
      | none => .error .typeError
      | some spec => do
        let obj ← createChoiceModel env "MNL" df
          { altIdCol := orig.args.altIdCol, obsIdCol := idCol, choiceCol := orig.args.choiceCol,
            specification := spec, names := names, interceptRefPos := .none, shapeRefPos := .none,
            interceptNames := none, shapeNames := none, nestSpec := none, mixingIdCol := none,
            mixingVars := none }
        match init with
        | none => .error .attributeError
        | some x0 => do
          let est ← F.fit obj x0 kw
          .ok (est, obj)
    (res, left)

/-- `retrieve_point_est`, bootstrap_mle.py:225-338, likewise.  `fit_kwargs` reaches it through `**` and is
a new dictionary in each call. -/
def retrievePointEstShared (env : Env V) (F : Fitter V (Kwargs V))
    (extract : ChoiceModel V → List (PyVal V) → List V → ℕ → Except Err (List V))
    (orig : ChoiceModel V) (df : Frame V) (idCol : String) (numParams : ℕ)
    (mnl : MnlArgs V (Kwargs V)) (fitKwargs : Kwargs V) : Except Err (List V) × Option (Kwargs V) :=
  let r := getMnlPointEstShared env F orig df idCol numParams mnl
  (do
    let (est, obj) ← r.1
    if est.length ≠ obj.indVarNames.length then .error .valueError
    else if orig.displayName = displayNameOf "MNL" then .ok est
    else do
      let init ← extract orig obj.indVarNames est numParams
      let newObj ← recreate env orig idCol df
      F.fit newObj init
        (if "just_point" ∉ fitKwargs.map Prod.fst then kwSet fitKwargs "just_point" (.num 1)
          else fitKwargs), r.2)

/-- The loops at bootstrap.py:327-350 and 474-490: each table is made (which may raise), the parameters
are estimated and written into a row; an exception ends the loop.  The caller's dictionary passes from
each round to the next. -/
def replicatesShared (env : Env V) (F : Fitter V (Kwargs V))
    (extract : ChoiceModel V → List (PyVal V) → List V → ℕ → Except Err (List V))
    (orig : ChoiceModel V) (idCol : String) (numParams : ℕ) (fitKwargs : Kwargs V) :
    List (Except Err (Frame V)) → MnlArgs V (Kwargs V) →
      Except Err (List (List V)) × Option (Kwargs V)
  | [], mnl => (.ok [], mnl.kwargs)
  | .error e :: _, mnl => (.error e, mnl.kwargs)
  | .ok df :: rest, mnl =>
    match retrievePointEstShared env F extract orig df idCol numParams mnl fitKwargs with
    | (.error e, d) => (.error e, d)
    | (.ok x, d) =>
      match assignRow numParams x with
      | .error e => (.error e, d)
      | .ok row =>
        match replicatesShared env F extract orig idCol numParams fitKwargs rest
            { mnl with kwargs := d } with
        | (.error e, d') => (.error e, d')
        | (.ok rows, d') => (.ok (row :: rows), d')

/-- `generate_jackknife_replicates`, bootstrap.py:361-498. -/
def generateJackknifeShared (env : Env V) (F : Fitter V (Kwargs V))
    (extract : ChoiceModel V → List (PyVal V) → List V → ℕ → Except Err (List V))
    (orig : ChoiceModel V) (numParams : ℕ) (mnl : MnlArgs V (Kwargs V)) (fitKwargs : Kwargs V) :
    Except Err (List (List V)) × Option (Kwargs V) :=
  replicatesShared env F extract orig orig.args.obsIdCol numParams fitKwargs
    ((jackknifeFrames orig.data orig.args.obsIdCol).map .ok) mnl

/-- `generate_bootstrap_replicates`, bootstrap.py:186-359, for the given samples of observation ids: the
table of a sample is made in its own round of the loop. -/
def generateBootstrapShared [NatCast V] (env : Env V) (F : Fitter V (Kwargs V))
    (extract : ChoiceModel V → List (PyVal V) → List V → ℕ → Except Err (List V))
    (orig : ChoiceModel V) (numParams : ℕ) (mnl : MnlArgs V (Kwargs V)) (fitKwargs : Kwargs V)
    (samples : List (List V)) : Except Err (List (List V)) × Option (Kwargs V) :=
  replicatesShared env F extract orig "bootstrap_id" numParams fitKwargs
    (samples.map fun s =>
      createBootstrapDataframe orig.data orig.args.obsIdCol s (groupbyDict orig.data orig.args.obsIdCol)
        "bootstrap_id") mnl

end Replicates

end Pylogit
