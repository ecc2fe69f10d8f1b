import Verif.Model.Session

/-!
# Model of sessions that read tables from files

The argument `data` of the constructors and of the predictions is a `DataFrame` or a path to a CSV file.  Here all
tables are objects on a heap: those the caller made or was given, and those the library read from files, which the
caller has no name for (a simplification: callers do not reach into the attributes of models).
-/

namespace Pylogit

variable {V C : Type} [LinearOrder V]

/-- The argument `data`: a string, one of the caller's tables, or another object. -/
inductive DataArg where
  | str (path : String)
  | table (i : ℕ)
  | other

/-- The objects and files of a session.  `heap` has all tables and models; `mine` has the positions of the caller's
tables in it. -/
structure FileSession (C V : Type) where
  files : String → Option C
  mine : List ℕ
  heap : Session V

/-- `pd.read_csv`, for the content of the file, if it exists: the table or the exception.  Not in the repository. -/
abbrev ReadCsv (C V : Type) := Option C → Except Err (Frame V)

/-- `get_dataframe_from_data`, choice_tools.py:25-54: the position of the table, and the session with it.  (There is no
table at a position the caller does not have: an object of another type.) -/
def getDataframe (read : ReadCsv C V) (data : DataArg) (s : FileSession C V) : Except Err (ℕ × FileSession C V) :=
  match data with
  | .str path =>
    if ".csv".toList <:+ path.toList then do
      let df ← read (s.files path)
      .ok (s.heap.tables.length, { s with heap := { s.heap with tables := s.heap.tables ++ [df] } })
    else .error .valueError
  | .table i =>
    match s.mine[i]? with
    | some j => .ok (j, s)
    | none => .error .typeError
  | .other => .error .typeError

/-- The checks made before the data is looked at: `ensure_valid_model_type`, pylogit.py:58-80, and the first lines of the
constructors, conditional_logit.py:269-283, mixed_logit.py:449-465, asym_logit.py:877-893, nested_logit.py:401-417. -/
def checksBeforeData (modelType : String) (a : ModelArgs V) : Except Err Unit :=
  match modelTypeToClass.lookup modelType with
  | none => .error .valueError
  | some .mnl => if a.interceptRefPos ≠ .none then .error .valueError else .ok ()
  | some .mixed => if a.interceptRefPos ≠ .none then .error .valueError else .ok ()
  | some .asym =>
    match a.shapeRefPos with
    | .int _ => .ok ()
    | _ => .error .valueError
  | some .nested =>
    match a.nestSpec with
    | none => .error .valueError
    | some _ => .ok ()
  | some _ => .ok ()

/-- Calls of the library. -/
inductive FileCall (V : Type) where
  | create (modelType : String) (data : DataArg) (a : ModelArgs V)
  | predict (model : ℕ) (data : DataArg)
  | panelPredict (model : ℕ) (data : DataArg) (returnLong : Bool) (choiceCol : Option String)
  | fit (model : ℕ)

/-- A call that goes on with the table, once it has one. -/
def withDataframe (read : ReadCsv C V) (data : DataArg) (s : FileSession C V) (f : ℕ → Session V → Session V) :
    FileSession C V :=
  match getDataframe read data s with
  | .error _ => s
  | .ok (i, s') => { s' with heap := f i s'.heap }

/-- The session after a call: pylogit.py:83-225 and base_multinomial_cm_v2.py:776-918 for `create`,
base_multinomial_cm_v2.py:1848-1853 for `predict`, mixed_logit.py:740-754 for `panel_predict`. -/
def fileCall [MulZeroOneClass V] (env : Env V) (read : ReadCsv C V) (c : FileCall V) (s : FileSession C V) :
    FileSession C V :=
  match c with
  | .create ty data a =>
    match checksBeforeData ty a with
    | .error _ => s
    | .ok _ => withDataframe read data s fun i => libCall env (.create ty i a)
  | .predict m data => withDataframe read data s fun i => libCall env (.predict m i)
  | .panelPredict m data returnLong choiceCol =>
    if choiceCol = none ∧ returnLong = false then s
    else withDataframe read data s fun i => libCall env (.panelPredict m i returnLong choiceCol)
  | .fit m => { s with heap := libCall env (.fit m) s.heap }

/-- What `create_choice_model` returns or raises: the model, pylogit.py:83-225. -/
def createFrom [MulZeroOneClass V] (env : Env V) (read : ReadCsv C V) (ty : String) (data : DataArg) (a : ModelArgs V)
    (s : FileSession C V) : Except Err (ChoiceModel V) := do
  checksBeforeData ty a
  let r ← getDataframe read data s
  match r.2.heap.tables[r.1]? with
  | some df => createChoiceModel env ty df a
  | none => .error .typeError

/-- The long probabilities `predict` of a logit-type model with the parameters `stored` returns,
base_multinomial_cm_v2.py:1848-1955. -/
noncomputable def predictFrom (env : Env ℝ) (read : ReadCsv C ℝ) (m : ChoiceModel ℝ) (stored : ParamArrays) (data : DataArg)
    (s : FileSession C ℝ) : Except Err (List ℝ) := do
  let r ← getDataframe read data s
  match r.2.heap.tables[r.1]? with
  | some df =>
    let p ← predict env m stored df none true none
    match p with
    | .long q => .ok (List.ofFn fun i => q i ())
    | _ => .error .typeError
  | none => .error .typeError

/-- What happens in a session: calls of the library; the caller makes a table, changes one of its tables, or a file is
written or removed. -/
inductive FileEvent (C V : Type) where
  | lib (c : FileCall V)
  | newTable (df : Frame V)
  | setColumn (i : ℕ) (c : String) (x : ℕ → V)
  | takeRows (i : ℕ) (rows : List ℕ)
  | write (path : String) (content : Option C)

/-- A change of one of the caller's tables. -/
def changeMine [MulZeroOneClass V] (env : Env V) (s : FileSession C V) (i : ℕ) (e : ℕ → SessionEvent V) : FileSession C V :=
  match s.mine[i]? with
  | some j => { s with heap := sessionEvent env s.heap (e j) }
  | none => s

/-- One event. -/
def fileEvent [MulZeroOneClass V] (env : Env V) (read : ReadCsv C V) (s : FileSession C V) :
    FileEvent C V → FileSession C V
  | .lib c => fileCall env read c s
  | .newTable df =>
    { s with mine := s.mine ++ [s.heap.tables.length], heap := { s.heap with tables := s.heap.tables ++ [df] } }
  | .setColumn i c x => changeMine env s i fun j => .setColumn j c x
  | .takeRows i rows => changeMine env s i fun j => .takeRows j rows
  | .write path content => { s with files := Function.update s.files path content }

/-- A history of events. -/
def fileSession [MulZeroOneClass V] (env : Env V) (read : ReadCsv C V) (s : FileSession C V) (l : List (FileEvent C V)) :
    FileSession C V :=
  l.foldl (fileEvent env read) s

end Pylogit
