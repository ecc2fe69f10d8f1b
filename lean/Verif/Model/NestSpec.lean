import Verif.Model.Design

/-!
# Model of the nest-specification checks of `src/pylogit/base_multinomial_cm_v2.py`

`isInt` tells which numbers are Python `int`s.
-/

namespace Pylogit

variable {V : Type} [LinearOrder V]

/-- `isinstance(x, list)`. -/
def PyVal.isList : PyVal V → Bool
  | .list _ => true
  | _ => false

/-- The elements of a Python list (used only on values that passed `isinstance(x, list)`). -/
def PyVal.elems : PyVal V → List (PyVal V)
  | .list l => l
  | _ => []

/-- `isinstance(x, int)`. -/
def PyVal.isIntObj (isInt : V → Bool) : PyVal V → Bool
  | .num a => isInt a
  | _ => false

/-- The number in a numeric object. -/
def PyVal.num? : PyVal V → Option V
  | .num a => some a
  | _ => none

/-- `check_type_of_nest_spec_keys_and_values`, base_multinomial_cm_v2.py:183-207. -/
def checkNestSpecTypes (ns : List (PyVal V × PyVal V)) : Except Err Unit :=
  if ns.all (fun kv => kv.1.isStr) ∧ ns.all (fun kv => kv.2.isList) then .ok ()
  else .error .typeError

/-- `check_for_empty_nests_in_nest_spec`, base_multinomial_cm_v2.py:210-235. -/
def checkEmptyNests (ns : List (PyVal V × PyVal V)) : Except Err Unit :=
  if ns.filter (fun kv => decide (kv.2.elems.length = 0)) ≠ [] then .error .valueError else .ok ()

/-- `list_elements = reduce(lambda x, y: x + y, ...)`, base_multinomial_cm_v2.py:844-845; `reduce` of
an empty list raises `TypeError`. -/
def nestListElements (ns : List (PyVal V × PyVal V)) : Except Err (List (PyVal V)) :=
  match ns with
  | [] => .error .typeError
  | kv :: rest => .ok (rest.foldl (fun x y => x ++ y.2.elems) kv.2.elems)

/-- `ensure_alt_ids_in_nest_spec_are_ints`, base_multinomial_cm_v2.py:238-264. -/
def ensureNestIdsAreInts (isInt : V → Bool) (elements : List (PyVal V)) : Except Err Unit :=
  if elements.all (PyVal.isIntObj isInt) then .ok () else .error .valueError

/-- `ensure_alt_ids_are_only_in_one_nest`, base_multinomial_cm_v2.py:267-293: the set of the ids is
as large as the list. -/
def ensureOneNest (elements : List V) : Except Err Unit :=
  if elements.dedup.length = elements.length then .ok () else .error .valueError

/-- `ensure_all_alt_ids_have_a_nest`, base_multinomial_cm_v2.py:296-327. -/
def ensureAllHaveNest (elements allIds : List V) : Except Err Unit :=
  if allIds.filter (fun a => decide (a ∉ elements)) ≠ [] then .error .valueError else .ok ()

/-- `ensure_nest_alts_are_valid_alts`, base_multinomial_cm_v2.py:330-361. -/
def ensureNestAltsValid (elements allIds : List V) : Except Err Unit :=
  if elements.filter (fun a => decide (a ∉ allIds)) ≠ [] then .error .valueError else .ok ()

/-- The nest-specification block of `MNDC_Model.__init__`, base_multinomial_cm_v2.py:836-853.  After
the integer check all elements are numbers, so the later checks get the list of their values. -/
def validateNestSpec (isInt : V → Bool) (ns : List (PyVal V × PyVal V)) (allIds : List V) :
    Except Err Unit := do
  checkNestSpecTypes ns
  checkEmptyNests ns
  let elements ← nestListElements ns
  ensureNestIdsAreInts isInt elements
  let ids := elements.filterMap PyVal.num?
  ensureOneNest ids
  ensureAllHaveNest ids allIds
  ensureNestAltsValid ids allIds

end Pylogit
