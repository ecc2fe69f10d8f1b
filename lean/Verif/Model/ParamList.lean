import Verif.Model.Predict

/-!
# Model of the checks of a `param_list` argument as it arrives, base_multinomial_cm_v2.py:386-492 and 1708-1777

`Verif.Model.Predict` starts from four arrays of equal dimension.  Here the argument is any Python object; of
an array the checks look at its shape alone.
-/

namespace Pylogit

/-- An element of `param_list`, as far as the checks look at it: `None`, a NumPy array of some shape, or
another object. -/
inductive ParamObj where
  | none
  | array (shape : List ℕ)
  | other

/-- The `param_list` argument: `None`, a list, or another object. -/
inductive ParamListArg where
  | none
  | list (l : List ParamObj)
  | other

/-- `x is None or p(x.shape)`; an element that is neither `None` nor an array has no shape
(`AttributeError`, which the callers do not reach because of the type check before). -/
def ParamObj.noneOr (p : List ℕ → Bool) : ParamObj → Except Err Bool
  | .none => .ok true
  | .array s => .ok (p s)
  | .other => .error .attributeError

/-- `all([...])` over such tests (the list is built before `all` looks at it). -/
def allNoneOr (p : List ℕ → Bool) (l : List ParamObj) : Except Err Bool := do
  let bs ← l.mapM (ParamObj.noneOr p)
  .ok (bs.all id)

/-- `assert b` inside `try ... except AssertionError: raise err`. -/
def assertOr (err : Err) (b : Bool) : Except Err Unit := if b then .ok () else .error err

/-- `check_type_and_size_of_param_list`, base_multinomial_cm_v2.py:410-422. -/
def checkTypeAndSize (pl : ParamListArg) (n : ℕ) : Except Err (List ParamObj) :=
  match pl with
  | .list l => if l.length = n then .ok l else .error .valueError
  | _ => .error .valueError

/-- `isinstance(x, np.ndarray)`. -/
def ParamObj.isArray : ParamObj → Bool
  | .array _ => true
  | _ => false

/-- `x is None or isinstance(x, np.ndarray)`. -/
def ParamObj.isNoneOrArray : ParamObj → Bool
  | .other => false
  | _ => true

/-- `param_list[0]`: `IndexError` for an empty list. -/
def firstParam (l : List ParamObj) : Except Err ParamObj :=
  match l with
  | [] => .error .indexError
  | x :: _ => .ok x

/-- `param_list[0].shape`. -/
def firstShape (l : List ParamObj) : Except Err (List ℕ) := do
  match ← firstParam l with
  | .array s => .ok s
  | _ => .error .attributeError

/-- `check_type_of_param_list_elements`, base_multinomial_cm_v2.py:425-440. -/
def checkElementTypes (l : List ParamObj) : Except Err Unit := do
  let x ← firstParam l
  assertOr .typeError x.isArray
  assertOr .typeError (l.all ParamObj.isNoneOrArray)

/-- `check_dimensional_equality_of_param_list_arrays`, base_multinomial_cm_v2.py:466-492. -/
def checkDimensions (l : List ParamObj) : Except Err Unit := do
  let s ← firstShape l
  assertOr .valueError (decide (s.length ∈ [1, 2]))
  assertOr .valueError (← allNoneOr (fun t => decide (t.length = s.length)) l)

/-- `x.shape[1]`: `IndexError` for an array of fewer than two dimensions (not reached); here such an array
counts as having 0 columns. -/
def numColumns (s : List ℕ) : ℕ := s.getD 1 0

/-- `check_num_columns_in_param_list_arrays`, base_multinomial_cm_v2.py:443-463. -/
def checkColumns (l : List ParamObj) : Except Err Unit := do
  let s ← firstShape l
  assertOr .valueError (← allNoneOr (fun t => decide (numColumns t = numColumns s)) l)

/-- `check_num_rows_of_parameter_array`, base_multinomial_cm_v2.py:386-407, behind the test for `None` of
lines 1751, 1759 and 1767.  An array without dimensions has no `shape[0]` (`IndexError`). -/
def checkRowsOf (x : ParamObj) (n : ℕ) : Except Err Unit :=
  match x with
  | .none => .ok ()
  | .array (k :: _) => if k ≠ n then .error .valueError else .ok ()
  | .array [] => .error .indexError
  | .other => .error .attributeError

/-- `check_param_list_validity`, base_multinomial_cm_v2.py:1708-1777, on any object. -/
def checkParamListArg {V : Type} (m : ChoiceModel V) (pl : ParamListArg) : Except Err Unit :=
  match pl with
  | .none => .ok ()
  | pl => do
    let l ← checkTypeAndSize pl 4
    checkElementTypes l
    checkDimensions l
    let s ← firstShape l
    if s.length = 2 then checkColumns l else .ok ()
    match l with
    | [a, b, c, d] => do
      checkRowsOf a m.indVarNames.length
      checkRowsOf b (nameCount m.args.interceptNames)
      checkRowsOf c (nameCount m.args.shapeNames)
      checkRowsOf d (nameCount m.args.nestSpec)
    | _ => .error .indexError

/-- An array with the given rows, each of the further dimensions `rest`, or `None`. -/
def arrayObj {W : Type} (rest : List ℕ) : Option (List W) → ParamObj
  | none => .none
  | some a => .array (a.length :: rest)

/-- The argument that four arrays make, whose rows have the given further dimensions: none for
one-dimensional arrays, `[d]` for two-dimensional arrays with `d` columns. -/
def ParamArraysOf.asArg {W : Type} (rest : List ℕ) (p : ParamArraysOf W) : ParamListArg :=
  .list [.array (p.index.length :: rest), arrayObj rest p.intercepts, arrayObj rest p.shapes,
    arrayObj rest p.nests]

end Pylogit
