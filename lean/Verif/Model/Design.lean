import Verif.Model.Mappings

/-!
# Model of the design-matrix code of `src/pylogit/choice_tools.py`

Tables hold cells of one type `V` (ids and values alike).  Python objects whose type is checked at
run time are values of `PyVal`.
-/

namespace Pylogit

/-- A Python object as far as the checks look at it: a string, a number, a list, or anything else
(tuples and arrays, for which NumPy's `in` has its own broadcasting rules, are not modelled). -/
inductive PyVal (V : Type) where
  | str (s : String)
  | num (a : V)
  | list (l : List (PyVal V))
  | other

/-- A pandas `DataFrame`: column labels, number of rows, and the cells.  `val c` is meaningful only
for `c ∈ columns`; the code reads a column only after checking that it exists. -/
structure Frame (V : Type) where
  columns : List String
  numRows : ℕ
  val : String → Fin numRows → V

/-- `df[col].values` as a list. -/
def Frame.colList {V : Type} (df : Frame V) (c : String) : List V := List.ofFn (df.val c)

variable {V : Type} [LinearOrder V]

/-- `x in unique_alternatives` for a NumPy array of numbers. -/
def PyVal.inAlts (alts : List V) : PyVal V → Bool
  | .num a => decide (a ∈ alts)
  | _ => false

/-- `ensure_columns_are_in_dataframe`, choice_tools.py:115-158, and
`ensure_specification_cols_are_in_dataframe`, choice_tools.py:222-266 (argument types fixed). -/
def ensureColumnsInDataframe (cols : List String) (df : Frame V) : Except Err Unit :=
  if cols.filter (fun c => decide (c ∉ df.columns)) ≠ [] then .error .valueError else .ok ()

/-- The inner loop over a group that is a list, choice_tools.py:314-327. -/
def checkGroupItems (alts : List V) : List (PyVal V) → Except Err Unit
  | [] => .ok ()
  | .list _ :: _ => .error .valueError
  | x :: xs => if x.inAlts alts then checkGroupItems alts xs else .error .valueError

/-- The loop over the groups of a list specification, choice_tools.py:311-332. -/
def checkGroups (alts : List V) : List (PyVal V) → Except Err Unit
  | [] => .ok ()
  | .list l :: gs => do
    checkGroupItems alts l
    checkGroups alts gs
  | g :: gs => if g.inAlts alts then checkGroups alts gs else .error .valueError

/-- The body of the loop of `check_type_and_values_of_specification_dict`,
choice_tools.py:302-337. -/
def checkSpecValue (alts : List V) : PyVal V → Except Err Unit
  | .str s => if s ≠ "all_same" ∧ s ≠ "all_diff" then .error .valueError else .ok ()
  | .list gs => checkGroups alts gs
  | _ => .error .typeError

/-- `check_type_and_values_of_specification_dict`, choice_tools.py:269-339. -/
def checkSpecDict (alts : List V) : List (String × PyVal V) → Except Err Unit
  | [] => .ok ()
  | kv :: rest => do
    checkSpecValue alts kv.2
    checkSpecDict alts rest

/-- `isinstance(x, str)`. -/
def PyVal.isStr : PyVal V → Bool
  | .str _ => true
  | _ => false

/-- `specification == s` for a string `s`. -/
def PyVal.eqStr (s : String) : PyVal V → Bool
  | .str t => decide (t = s)
  | _ => false

/-- The body of the loop of `check_keys_and_values_of_name_dictionary`, choice_tools.py:390-417. -/
def checkNameValue (numAlts : ℕ) (specification nameObject : PyVal V) : Except Err Unit :=
  match specification with
  | .list gs =>
    match nameObject with
    | .list ns => if ns.length = gs.length ∧ ns.all PyVal.isStr then .ok () else .error .valueError
    | _ => .error .valueError
  | s =>
    if s.eqStr "all_same" then
      (if nameObject.isStr then .ok () else .error .typeError)
    else
      match nameObject with
      | .list ns => if ns.length = numAlts then .ok () else .error .valueError
      | _ => .error .valueError

/-- The loop of `check_keys_and_values_of_name_dictionary`, choice_tools.py:389-417. -/
def checkNameValues (spec : List (String × PyVal V)) (numAlts : ℕ) :
    List (String × PyVal V) → Except Err Unit
  | [] => .ok ()
  | kv :: rest =>
    match spec.lookup kv.1 with
    | none => .error .keyError
    | some s => do
      checkNameValue numAlts s kv.2
      checkNameValues spec numAlts rest

/-- `check_keys_and_values_of_name_dictionary`, choice_tools.py:342-419.  Key views compare as
sets. -/
def checkNameDict (names spec : List (String × PyVal V)) (numAlts : ℕ) : Except Err Unit :=
  if (∀ k ∈ names.map Prod.fst, k ∈ spec.map Prod.fst) ∧
      (∀ k ∈ spec.map Prod.fst, k ∈ names.map Prod.fst) then
    checkNameValues spec numAlts names
  else .error .valueError

/-- `isin(group)` for one cell. -/
def isinGroup (group : List (PyVal V)) (a : V) : Bool := group.any fun g => g.inAlts [a]

/-- One group of a list specification, choice_tools.py:687-701: the column and its default name.
`fmt` and `fmtList` are Python's `str` on numbers and lists. -/
def groupColumn [MulZeroOneClass V] (fmt : V → String) (fmtList : List (PyVal V) → String)
    (df : Frame V) (altCol var : String) :
    PyVal V → Except Err ((Fin df.numRows → V) × String)
  | .num a => .ok (fun r => (if df.val altCol r = a then 1 else 0) * df.val var r,
      var ++ "_" ++ fmt a)
  | .list l => .ok (fun r => (if isinGroup l (df.val altCol r) then 1 else 0) * df.val var r,
      var ++ "_" ++ fmtList l)
  | _ => .error .typeError

/-- The body of the column loop for one variable, choice_tools.py:673-701. -/
def variableColumns [MulZeroOneClass V] (fmt : V → String) (fmtList : List (PyVal V) → String)
    (df : Frame V) (altCol : String) (alts : List V) (var : String) (specification : PyVal V) :
    Except Err (List ((Fin df.numRows → V) × String)) :=
  if specification.eqStr "all_same" then .ok [(df.val var, var)]
  else if specification.eqStr "all_diff" then
    .ok (alts.map fun a =>
      (fun r => (if df.val altCol r = a then 1 else 0) * df.val var r,
        var ++ "_" ++ fmt a))
  else
    match specification with
    | .list gs => gs.mapM (groupColumn fmt fmtList df altCol var)
    | _ => .error .typeError

/-- The whole column loop, choice_tools.py:672-701. -/
def designColumns [MulZeroOneClass V] (fmt : V → String) (fmtList : List (PyVal V) → String)
    (df : Frame V) (altCol : String) (alts : List V) :
    List (String × PyVal V) → Except Err (List ((Fin df.numRows → V) × String))
  | [] => .ok []
  | kv :: rest => do
    let here ← variableColumns fmt fmtList df altCol alts kv.1 kv.2
    let later ← designColumns fmt fmtList df altCol alts rest
    .ok (here ++ later)

/-- One value of the names dictionary, choice_tools.py:710-714. -/
def flattenName : PyVal V → Except Err (List (PyVal V))
  | .str s => .ok [.str s]
  | .list l => .ok l
  | _ => .error .typeError

/-- The names loop, choice_tools.py:708-714. -/
def flattenNames : List (String × PyVal V) → Except Err (List (PyVal V))
  | [] => .ok []
  | kv :: rest => do
    let here ← flattenName kv.2
    let later ← flattenNames rest
    .ok (here ++ later)

/-- `create_design_matrix`, choice_tools.py:587-716.  The table is a `DataFrame` and the
dictionaries are ordered dictionaries (association lists with distinct keys), so the type checks of
lines 642 and 657 pass.  `np.hstack` of no column (line 704) raises `ValueError`.  The result is the
list of columns and the list of names. -/
def createDesignMatrix [MulZeroOneClass V] (fmt : V → String) (fmtList : List (PyVal V) → String)
    (df : Frame V) (spec : List (String × PyVal V)) (altCol : String)
    (names : Option (List (String × PyVal V))) :
    Except Err (List (Fin df.numRows → V) × List (PyVal V)) := do
  if altCol ∉ df.columns then
    .error .valueError
  else
    ensureColumnsInDataframe (spec.map Prod.fst) df
    let alts := npSort (npUnique (df.colList altCol))
    checkSpecDict alts spec
    match names with
    | none => .ok ()
    | some ns => checkNameDict ns spec alts.length
    let cols ← designColumns fmt fmtList df altCol alts spec
    if cols.isEmpty then
      .error .valueError
    else
      match names with
      | none => .ok (cols.map Prod.fst, cols.map fun c => .str c.2)
      | some ns => do
        let flat ← flattenNames ns
        .ok (cols.map Prod.fst, flat)

/-- `convert_mixing_names_to_positions`, choice_tools.py:1744-1761: `list.index` of each name. -/
def convertMixingNamesToPositions (mixingNames indVarNames : List String) : Except Err (List ℕ) :=
  mixingNames.mapM fun name =>
    if name ∈ indVarNames then .ok (indVarNames.idxOf name) else .error .valueError

end Pylogit
