import Verif.Model.NestSpec
import Verif.Model.Params

/-!
# Model of the construction of choice models

`create_choice_model` of pylogit.py, the constructors of the seven classes, `MNDC_Model.__init__` and
the two functions of bootstrap_mle.py that take a model object apart in order to build a copy.

The table is a `DataFrame` (reading a csv file is not modelled); specification and names are ordered
dictionaries; lists of names are lists of strings.  Warnings are not modelled.
-/

namespace Pylogit

variable {V : Type} [LinearOrder V]

/-- The reference-position argument as far as the checks look at it: `None`, an `int`, or another
object. -/
inductive PyRef where
  | none
  | int (z : ℤ)
  | other
  deriving DecidableEq, Repr

/-- `ensure_ref_position_is_valid`, base_multinomial_cm_v2.py:99-142; `isIntercept` tells the two
parameter titles apart. -/
def ensureRefPositionIsValid (ref : PyRef) (numAlts : ℕ) (isIntercept : Bool) : Except Err Unit :=
  match ref with
  | .other => .error .typeError
  | .none => if isIntercept then .error .valueError else .ok ()
  | .int z => if 0 ≤ z ∧ z ≤ (numAlts : ℤ) - 1 then .ok () else .error .valueError

/-- `check_length_of_shape_or_intercept_names`, base_multinomial_cm_v2.py:145-180. -/
def checkLengthOfNames (names : List String) (numAlts constrained : ℕ) : Except Err Unit :=
  if (names.length : ℤ) ≠ (numAlts : ℤ) - constrained then .error .valueError else .ok ()

/-- The body of the loop of `MNDC_Model.__init__`, base_multinomial_cm_v2.py:818-831. -/
def checkNamesAndRef (names : Option (List String)) (ref : PyRef) (numAlts : ℕ)
    (isIntercept : Bool) : Except Err Unit :=
  match names with
  | none => .ok ()
  | some l => do
    ensureRefPositionIsValid ref numAlts isIntercept
    checkLengthOfNames l numAlts (if ref = .none then 0 else 1)

/-- `add_intercept_to_dataframe`, base_multinomial_cm_v2.py:364-383 (returns the table the code
changes in place). -/
def addIntercept [One V] (spec : List (String × PyVal V)) (df : Frame V) : Frame V :=
  if "intercept" ∈ spec.map Prod.fst ∧ "intercept" ∉ df.columns then
    { columns := df.columns ++ ["intercept"]
      numRows := df.numRows
      val := fun c r => if c = "intercept" then 1 else df.val c r }
  else df

/-- `ensure_valid_nums_in_specification_cols`, base_multinomial_cm_v2.py:60-96.  `badCol` tells which
columns of the table hold something other than finite numbers. -/
def ensureValidNums (badCol : String → Bool) (spec : List (String × PyVal V)) : Except Err Unit :=
  if (spec.map Prod.fst).filter badCol ≠ [] then .error .valueError else .ok ()

/-- `ensure_all_mixing_vars_are_in_the_name_dict`, base_multinomial_cm_v2.py:524-574. -/
def ensureMixingVars (mixingVars : Option (List String)) (indVarNames : List (PyVal V)) :
    Except Err Unit :=
  match mixingVars with
  | none => .ok ()
  | some l =>
    if l.filter (fun v => !indVarNames.any (PyVal.eqStr v)) ≠ [] then .error .valueError else .ok ()

/-- `convert_mixing_names_to_positions`, mixed_logit_calcs.py:90-105, on a list of Python objects. -/
def mixingPositions (mixingVars : List String) (indVarNames : List (PyVal V)) :
    Except Err (List ℕ) :=
  mixingVars.mapM fun v =>
    if indVarNames.any (PyVal.eqStr v) then .ok (indVarNames.findIdx (PyVal.eqStr v))
    else .error .valueError

/-- The keyword arguments of `create_choice_model`, pylogit.py:83-96, and of the constructors. -/
structure ModelArgs (V : Type) where
  altIdCol : String
  obsIdCol : String
  choiceCol : String
  specification : List (String × PyVal V)
  names : Option (List (String × PyVal V))
  interceptRefPos : PyRef
  shapeRefPos : PyRef
  interceptNames : Option (List String)
  shapeNames : Option (List String)
  nestSpec : Option (List (PyVal V × PyVal V))
  mixingIdCol : Option String
  mixingVars : Option (List String)

/-- The attributes of a model object, base_multinomial_cm_v2.py:891-916.  `args` holds the ones that are
stored unchanged. -/
structure ChoiceModel (V : Type) where
  cls : ModelType
  displayName : String
  data : Frame V
  design : List (Fin data.numRows → V)
  indVarNames : List (PyVal V)
  args : ModelArgs V
  mixingPos : Option (List ℕ)

/-- The environment of the construction: Python's `str` on numbers and lists, `isinstance(x, int)` on
numbers, and which columns hold bad values (in any table). -/
structure Env (V : Type) where
  fmt : V → String
  fmtList : List (PyVal V) → String
  isInt : V → Bool
  badCol : String → Bool

/-- The nest block, base_multinomial_cm_v2.py:836-853. -/
def checkNestSpecArg (isInt : V → Bool) (ns : Option (List (PyVal V × PyVal V))) (allIds : List V) :
    Except Err Unit :=
  match ns with
  | none => .ok ()
  | some l => validateNestSpec isInt l allIds

/-- `self.mixing_pos`, base_multinomial_cm_v2.py:911-916. -/
def mixingPosArg (mixingVars : Option (List String)) (indVarNames : List (PyVal V)) :
    Except Err (Option (List ℕ)) :=
  match mixingVars with
  | none => .ok none
  | some l => do
    let pos ← mixingPositions l indVarNames
    .ok (some pos)

/-- `all_ids = np.sort(dataframe[alt_id_col].unique())`, base_multinomial_cm_v2.py:805. -/
def allIds (df : Frame V) (altCol : String) : List V := npSort (npUnique (df.colList altCol))

/-- The checks of `MNDC_Model.__init__` before the table is changed,
base_multinomial_cm_v2.py:796-853. -/
def initChecks (env : Env V) (df : Frame V) (a : ModelArgs V) : Except Err Unit := do
  ensureColumnsInDataframe [a.altIdCol, a.obsIdCol, a.choiceCol] df
  let numAlts := (allIds df a.altIdCol).length
  checkNamesAndRef a.shapeNames a.shapeRefPos numAlts false
  checkNamesAndRef a.interceptNames a.interceptRefPos numAlts true
  checkNestSpecArg env.isInt a.nestSpec (allIds df a.altIdCol)

/-- The rest of `MNDC_Model.__init__`, base_multinomial_cm_v2.py:859-918, on the table with the
intercept column. -/
def initBuild [MulZeroOneClass V] (env : Env V) (cls : ModelType) (displayName : String)
    (df : Frame V) (a : ModelArgs V) : Except Err (ChoiceModel V) := do
  ensureColumnsInDataframe (a.specification.map Prod.fst) df
  ensureValidNums env.badCol a.specification
  let res ← createDesignMatrix env.fmt env.fmtList df a.specification a.altIdCol a.names
  ensureMixingVars a.mixingVars res.2
  let pos ← mixingPosArg a.mixingVars res.2
  .ok ⟨cls, displayName, df, res.1, res.2, a, pos⟩

/-- `MNDC_Model.__init__`, base_multinomial_cm_v2.py:776-918. -/
def baseInit [MulZeroOneClass V] (env : Env V) (cls : ModelType) (displayName : String)
    (df : Frame V) (a : ModelArgs V) : Except Err (ChoiceModel V) := do
  initChecks env df a
  initBuild env cls displayName (addIntercept a.specification df) a

/-- `model_type_to_display_name`, display_names.py:10-17, in order. -/
def displayNames : List (String × String) :=
  [("MNL", "Multinomial Logit Model"),
   ("Asym", "Multinomial Asymmetric Logit Model"),
   ("Cloglog", "Multinomial Clog-log Model"),
   ("Scobit", "Multinomial Scobit Model"),
   ("Uneven", "Multinomial Uneven Logit Model"),
   ("Nested Logit", "Nested Logit Model"),
   ("Mixed Logit", "Mixed Logit Model")]

/-- `model_type_to_class`, pylogit.py:35-41. -/
def modelTypeToClass : List (String × ModelType) :=
  [("MNL", .mnl), ("Asym", .asym), ("Cloglog", .cloglog), ("Scobit", .scobit),
   ("Uneven", .uneven), ("Nested Logit", .nested), ("Mixed Logit", .mixed)]

/-- `model_type_to_display_name[key]`; the constructors use keys that exist. -/
def displayNameOf (key : String) : String := (displayNames.lookup key).getD ""

/-- The constructors of the seven classes up to the call of the base constructor: the checks they make and
the arguments they pass on (arguments not passed on take the default `None`).
conditional_logit.py:269-303, asym_logit.py:877-916, clog_log.py:574-610, scobit.py:688-725,
uneven_logit.py:691-725, nested_logit.py:401-438, mixed_logit.py:449-489. -/
def classInit [MulZeroOneClass V] (env : Env V) (cls : ModelType) (df : Frame V) (a : ModelArgs V) :
    Except Err (ChoiceModel V) :=
  match cls with
  | .mnl =>
    if a.interceptRefPos ≠ .none then .error .valueError
    else baseInit env cls (displayNameOf "MNL") df
      { a with shapeRefPos := .none, interceptNames := none, shapeNames := none, nestSpec := none,
               mixingIdCol := none, mixingVars := none }
  | .asym =>
    match a.shapeRefPos with
    | .int _ => baseInit env cls (displayNameOf "Asym") df
        { a with nestSpec := none, mixingIdCol := none, mixingVars := none }
    | _ => .error .valueError
  | .cloglog => baseInit env cls (displayNameOf "Cloglog") df
      { a with shapeRefPos := .none, shapeNames := none, nestSpec := none, mixingIdCol := none,
               mixingVars := none }
  | .scobit => baseInit env cls (displayNameOf "Scobit") df
      { a with shapeRefPos := .none, nestSpec := none, mixingIdCol := none, mixingVars := none }
  | .uneven => baseInit env cls (displayNameOf "Uneven") df
      { a with shapeRefPos := .none, nestSpec := none, mixingIdCol := none, mixingVars := none }
  | .nested =>
    match a.nestSpec with
    | none => .error .valueError
    | some _ => baseInit env cls (displayNameOf "Nested Logit") df
        { a with interceptRefPos := .none, shapeRefPos := .none, interceptNames := none,
                 shapeNames := none, mixingIdCol := none, mixingVars := none }
  | .mixed =>
    if a.interceptRefPos ≠ .none then .error .valueError
    else baseInit env cls (displayNameOf "Mixed Logit") df
      { a with shapeRefPos := .none, interceptNames := none, shapeNames := none, nestSpec := none }

/-- `create_choice_model`, pylogit.py:83-225, with `ensure_valid_model_type`, pylogit.py:58-80. -/
def createChoiceModel [MulZeroOneClass V] (env : Env V) (modelType : String) (df : Frame V)
    (a : ModelArgs V) : Except Err (ChoiceModel V) :=
  match modelTypeToClass.lookup modelType with
  | none => .error .valueError
  | some cls => classInit env cls df a

/-- `get_model_abbrev`, bootstrap_mle.py:81-103: the first key whose display name is the model's. -/
def getModelAbbrev (displayName : String) : Except Err String :=
  match displayNames.find? (fun kv => kv.2 = displayName) with
  | some kv => .ok kv.1
  | none => .error .valueError

/-- Re-creating a model on the table `df` the way the bootstrap does: `get_model_creation_kwargs`,
bootstrap_mle.py:106-136, and the call of `create_choice_model`, bootstrap_mle.py:320-329. -/
def recreate [MulZeroOneClass V] (env : Env V) (m : ChoiceModel V) (newIdCol : String)
    (df : Frame V) : Except Err (ChoiceModel V) := do
  let key ← getModelAbbrev m.displayName
  createChoiceModel env key df { m.args with obsIdCol := newIdCol }

end Pylogit
