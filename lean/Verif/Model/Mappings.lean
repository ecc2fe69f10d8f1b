import Mathlib.Data.List.Sort
import Mathlib.Data.Finset.Sort
import Mathlib.Data.Matrix.Mul
import Verif.Model.Basic

/-!
# Model of the id mappings of `src/pylogit/choice_tools.py`

One-dimensional id arrays are lists over a linearly ordered type.  Sparse matrices are matrices
indexed by the positions of the row array and of the array of column ids.
-/

namespace Pylogit

variable {ι V : Type} [LinearOrder ι]

/-- `np.sort` of a list of distinct values or of indices (external code: NumPy). -/
def npSort {α : Type} [LinearOrder α] (l : List α) : List α := l.insertionSort (· ≤ ·)

/-- `np.unique(ids)` (external code: NumPy): the distinct values in ascending order. -/
def npUnique (ids : List ι) : List ι := npSort ids.dedup

/-- `np.unique(ids, return_index=True)[1]` (external code: NumPy): for each distinct value in
ascending order, the index of its first occurrence. -/
def npUniqueIndex (ids : List ι) : List ℕ := (npUnique ids).map fun v => ids.idxOf v

/-- `id_array[indices]` (NumPy integer-array indexing); indices out of range cannot occur here and
are skipped by the model. -/
def takeIdx (ids : List ι) (idx : List ℕ) : List ι := idx.filterMap fun i => ids[i]?

/-- `get_original_order_unique_ids`, choice_tools.py:719-746. -/
def originalOrderUniqueIds (ids : List ι) : List ι := takeIdx ids (npSort (npUniqueIndex ids))

/-- `create_row_to_some_id_col_mapping`, choice_tools.py:749-774. -/
def rowToSomeIdColMapping [Zero V] [One V] (ids : List ι) :
    Matrix (Fin ids.length) (Fin (originalOrderUniqueIds ids).length) V :=
  Matrix.of fun r c => if ids.get r = (originalOrderUniqueIds ids).get c then 1 else 0

/-- A Python `dict`: `d k = none` when the key is absent. -/
abbrev PyDict (α β : Type) := α → Option β

/-- `dict(zip(keys, values))` by successive insertion; a repeated key keeps the last value. -/
def dictOfPairs {α β : Type} [DecidableEq α] (l : List (α × β)) : PyDict α β :=
  l.foldl (fun d kv => Function.update d kv.1 (some kv.2)) fun _ => none

/-- `create_sparse_mapping(id_array, unique_ids)`, choice_tools.py:777-833: row `r` has a 1 in column
`unique_id_dict[id_array[r]]` if `id_array[r]` is in `unique_ids`, and is zero otherwise. -/
def sparseMapping [Zero V] [One V] (ids uniq : List ι) :
    Matrix (Fin ids.length) (Fin uniq.length) V :=
  let uniqueIdDict : PyDict ι ℕ := dictOfPairs (uniq.zip (List.range uniq.length))
  Matrix.of fun r c =>
    if ids.get r ∈ uniq then
      (if uniqueIdDict (ids.get r) = some c.val then 1 else 0)
    else 0

/-- `create_sparse_mapping(id_array)` with the default `unique_ids`, choice_tools.py:804-805. -/
def sparseMappingDefault [Zero V] [One V] (ids : List ι) :
    Matrix (Fin ids.length) (Fin (originalOrderUniqueIds ids).length) V :=
  sparseMapping ids (originalOrderUniqueIds ids)

/-- `rows_to_obs`, choice_tools.py:908; `rows_to_mixers`, choice_tools.py:955-956. -/
def rowsToObs [Zero V] [One V] (obsIds : List ι) :
    Matrix (Fin obsIds.length) (Fin (originalOrderUniqueIds obsIds).length) V :=
  sparseMappingDefault obsIds

/-- `rows_to_alts`, choice_tools.py:911-918. -/
def rowsToAlts [Zero V] [One V] (altIds : List ι) :
    Matrix (Fin altIds.length) (Fin (npSort (npUnique altIds)).length) V :=
  sparseMapping altIds (npSort (npUnique altIds))

/-- `chosen_row_to_obs`, choice_tools.py:925-926. -/
def chosenRowToObs [MulZeroOneClass V] (obsIds : List ι) (choice : Fin obsIds.length → V) :
    Matrix (Fin obsIds.length) (Fin (originalOrderUniqueIds obsIds).length) V :=
  Matrix.of fun r c => rowsToObs (V := V) obsIds r c * choice r

/-- `alt_id_to_nest_name`, choice_tools.py:934-937. -/
def altIdToNestName {ν : Type} (nestSpec : List (ν × List ι)) : PyDict ι ν :=
  dictOfPairs (nestSpec.flatMap fun kv => kv.2.map fun e => (e, kv.1))

/-- `nest_ids = np.arange(1, num_nests + 1)`, choice_tools.py:940. -/
def nestIds {ν : Type} (nestSpec : List (ν × List ι)) : List ℕ :=
  (List.range nestSpec.length).map (· + 1)

/-- `nest_name_to_nest_id`, choice_tools.py:941. -/
def nestNameToNestId {ν : Type} [DecidableEq ν] (nestSpec : List (ν × List ι)) : PyDict ν ℕ :=
  dictOfPairs ((nestSpec.map Prod.fst).zip (nestIds nestSpec))

/-- One element of `nest_id_vec`, choice_tools.py:944-945: both dictionary look-ups may raise
`KeyError`. -/
def nestIdOf {ν : Type} [DecidableEq ν] (nestSpec : List (ν × List ι)) (x : ι) : Except Err ℕ :=
  match altIdToNestName nestSpec x with
  | none => .error .keyError
  | some name =>
    match nestNameToNestId nestSpec name with
    | none => .error .keyError
    | some i => .ok i

/-- `rows_to_nests`, choice_tools.py:944-948.  The number of rows of the result is the length of
`nest_id_vec`, which is the number of alternative ids. -/
def rowsToNests [Zero V] [One V] {ν : Type} [DecidableEq ν] (altIds : List ι)
    (nestSpec : List (ν × List ι)) :
    Except Err ((ids : List ℕ) × Matrix (Fin ids.length) (Fin (nestIds nestSpec).length) V) := do
  let vec ← altIds.mapM (nestIdOf nestSpec)
  .ok ⟨vec, sparseMapping vec (nestIds nestSpec)⟩

end Pylogit
