import Mathlib.Algebra.Order.Ring.Defs
import Mathlib.Algebra.BigOperators.Fin
import Verif.Model.Design

/-!
# Model of the long/wide conversions of `src/pylogit/choice_tools.py`

Cells are elements of an ordered commutative ring; ids and values share the type.  Dictionaries are
association lists (with distinct keys).  Warnings are added in
`Verif.Model.ConversionWarnings`.
-/

namespace Pylogit

variable {V : Type} [LinearOrder V]

/-! ## Contiguity -/

/-- `ensure_contiguity_in_observation_rows`, choice_tools.py:1432-1462. -/
def ensureContiguity [AddGroup V] (ids : List V) : Except Err Unit :=
  if ((ids.tail.zip ids.dropLast).map fun p => decide (0 ≤ p.1 - p.2)).all id then .ok ()
  else .error .valueError

/-! ## Long to wide -/

/-- `check_dataframe_for_duplicate_records`, choice_tools.py:468-493. -/
def checkDuplicateRecords (df : Frame V) (obsCol altCol : String) : Except Err Unit :=
  if ¬ (List.ofFn fun r => (df.val obsCol r, df.val altCol r)).Nodup then .error .valueError
  else .ok ()

/-- `ensure_num_chosen_alts_equals_num_obs`, choice_tools.py:496-528. -/
def ensureNumChosen [AddMonoidWithOne V] (df : Frame V) (obsCol choiceCol : String) :
    Except Err Unit :=
  let numObs : V := ((npUnique (df.colList obsCol)).length : ℕ)
  let numChoices : V := (df.colList choiceCol).sum
  if numChoices < numObs then .error .valueError
  else if numChoices > numObs then .error .valueError
  else .ok ()

/-- `drop_duplicates` (external code: pandas), keeping first occurrences in order. -/
def dropDuplicates {α : Type} [DecidableEq α] (l : List α) : List α :=
  l.foldl (fun acc x => if x ∈ acc then acc else acc ++ [x]) []

/-- The result of `convert_long_to_wide`, by blocks of columns (choice_tools.py:1238-1243).  Labels
are kept for the availability and alternative-specific columns; the columns are lists of cells.
(When the blocks have different lengths pandas pads with NaN; the model keeps the lists.) -/
structure WideTable (V : Type) where
  obsIds : List V
  choice : List V
  avail : List (String × List V)
  ind : List (String × List V)
  spec : List (String × List V)
  deriving DecidableEq

/-- The labelled columns of the returned data frame, in order, choice_tools.py:1238-1243. -/
def WideTable.columns (t : WideTable V) (obsCol choiceCol : String) : List (String × List V) :=
  [(obsCol, t.obsIds), (choiceCol, t.choice)] ++ t.avail ++ t.ind ++ t.spec

/-- The returned data frame, as an input of `convert_wide_to_long`: a column is read by its label.
(Cells beyond the end of a list do not occur when the blocks have equal lengths.) -/
def WideTable.toFrame [Zero V] (t : WideTable V) (obsCol choiceCol : String) : Frame V where
  columns := (t.columns obsCol choiceCol).map Prod.fst
  numRows := t.obsIds.length
  val := fun c i => (((t.columns obsCol choiceCol).lookup c).getD []).getD i.val 0

/-- The label of an alternative: `int(x)` formatted, or its name, choice_tools.py:1166-1171 and
1200-1205; a missing name raises `KeyError`. -/
def altLabel (fmt : V → String) (altNames : Option (List (V × String))) (a : V) :
    Except Err String :=
  match altNames with
  | none => .ok (fmt a)
  | some d => match d.lookup a with
    | none => .error .keyError
    | some s => .ok s

/-- `obs_to_alt = row_to_obs.T.dot(row_to_alt)`, choice_tools.py:1159. -/
def obsToAlt [Semiring V] (df : Frame V) (obsCol altCol : String) :
    Matrix (Fin (originalOrderUniqueIds (df.colList obsCol)).length)
      (Fin (npSort (npUnique (df.colList altCol))).length) V :=
  Matrix.of fun o a => ∑ r : Fin df.numRows,
    rowsToObs (V := V) (df.colList obsCol) (r.cast (by simp [Frame.colList])) o *
      rowsToAlts (V := V) (df.colList altCol) (r.cast (by simp [Frame.colList])) a

/-- `obs_to_var`, choice_tools.py:1185-1197: the sums with the null value put where the alternative
is unavailable. -/
def obsToVar [Semiring V] (df : Frame V) (obsCol altCol : String) (null : V) (col : String) :
    Matrix (Fin (originalOrderUniqueIds (df.colList obsCol)).length)
      (Fin (npSort (npUnique (df.colList altCol))).length) V :=
  Matrix.of fun o a =>
    if obsToAlt df obsCol altCol o a = 0 then null
    else ∑ r : Fin df.numRows,
      rowsToObs (V := V) (df.colList obsCol) (r.cast (by simp [Frame.colList])) o *
        (rowsToAlts (V := V) (df.colList altCol) (r.cast (by simp [Frame.colList])) a *
          df.val col r)

/-- The columns of one alternative-specific variable, choice_tools.py:1199-1227: the positions of
`all_alternatives` that are in the variable's subset (all of them if it has none), each with its
label and values. -/
def varColumns [Semiring V] (fmt : V → String) (altNames : Option (List (V × String)))
    (df : Frame V) (obsCol altCol : String) (null : V) (subset : List (String × List V))
    (col : String) : Except Err (List (String × List V)) := do
  let allAlts := npSort (npUnique (df.colList altCol))
  let labels ← allAlts.mapM (altLabel fmt altNames)
  let idx := (List.finRange allAlts.length).filter fun a =>
    match subset.lookup col with
    | none => true
    | some rel => decide (allAlts.get a ∈ rel)
  .ok (idx.map fun a =>
    (col ++ "_" ++ labels.getD a.val "",
      List.ofFn fun o => obsToVar df obsCol altCol null col o a))

/-- `check_type_and_values_of_alt_name_dict`, choice_tools.py:531-562, called when a dictionary is
given (choice_tools.py:1097-1100). -/
def checkAltNameDict (df : Frame V) (altCol : String) (altNames : Option (List (V × String))) :
    Except Err Unit :=
  match altNames with
  | none => .ok ()
  | some d =>
    if ∀ k ∈ d.map Prod.fst, k ∈ df.colList altCol then .ok () else .error .valueError

/-- The construction part of `convert_long_to_wide`, choice_tools.py:1130-1256. -/
def buildWide [Ring V] (fmt : V → String) (df : Frame V)
    (indVars altSpecificVars : List String) (subset : List (String × List V))
    (obsCol altCol choiceCol : String) (altNames : Option (List (V × String))) (null : V) :
    Except Err (WideTable V) :=
  let newDf := dropDuplicates (List.ofFn fun r => (df.val obsCol r, indVars.map fun v => df.val v r))
  let chosen := ((List.finRange df.numRows).filter fun r => decide (df.val choiceCol r = 1)).map
    fun r => df.val altCol r
  -- assigning an array of another length to a column raises `ValueError`
  if chosen.length ≠ newDf.length then
    .error .valueError
  else do
    let allAlts := npSort (npUnique (df.colList altCol))
    let labels ← allAlts.mapM (altLabel fmt altNames)
    let avail := (List.finRange allAlts.length).map fun a =>
      ("availability_" ++ labels.getD a.val "",
        List.ofFn fun o => obsToAlt df obsCol altCol o a)
    let dfs ← (altSpecificVars ++ subset.map Prod.fst).mapM
      (varColumns fmt altNames df obsCol altCol null subset)
    -- `pd.concat([])` raises `ValueError`
    if dfs.isEmpty then
      .error .valueError
    else
      .ok { obsIds := newDf.map Prod.fst
            choice := chosen
            avail := avail
            ind := (List.finRange indVars.length).map fun k =>
              (indVars.get k, newDf.map fun t => t.2.getD k.val 0)
            spec := dfs.flatten }

/-- `convert_long_to_wide`, choice_tools.py:979-1256. -/
def convertLongToWide [Ring V] (fmt : V → String) (df : Frame V)
    (indVars altSpecificVars : List String) (subset : List (String × List V))
    (obsCol altCol choiceCol : String) (altNames : Option (List (V × String))) (null : V) :
    Except Err (WideTable V) := do
  ensureColumnsInDataframe indVars df
  ensureColumnsInDataframe altSpecificVars df
  ensureColumnsInDataframe (subset.map Prod.fst) df
  ensureColumnsInDataframe [choiceCol, obsCol, altCol] df
  checkDuplicateRecords df obsCol altCol
  ensureNumChosen df obsCol choiceCol
  checkAltNameDict df altCol altNames
  buildWide fmt df indVars altSpecificVars subset obsCol altCol choiceCol altNames null

/-! ## Wide to long -/

/-- `ensure_unique_obs_ids_in_wide_data`, choice_tools.py:1284-1307. -/
def ensureUniqueObsIds (w : Frame V) (obsCol : String) : Except Err Unit :=
  if (npUnique (w.colList obsCol)).length ≠ w.numRows then .error .valueError else .ok ()

/-- `check_wide_data_for_blank_choices`, choice_tools.py:1259-1281; `isNull` tells which cells are
null. -/
def checkBlankChoices (isNull : V → Bool) (w : Frame V) (choiceCol : String) : Except Err Unit :=
  if (w.colList choiceCol).any isNull then .error .valueError else .ok ()

/-- `ensure_all_wide_alt_ids_are_chosen`, choice_tools.py:1401-1429. -/
def ensureAllAltIdsChosen (w : Frame V) (choiceCol : String)
    (altSpecific : List (String × List (V × String))) (avail : List (V × String)) :
    Except Err Unit :=
  let sortedAltIds := npSort (npUnique (w.colList choiceCol))
  if (avail.map Prod.fst).filter (fun x => decide (x ∉ sortedAltIds)) ≠ [] then .error .valueError
  else if (altSpecific.flatMap fun nc => nc.2.map Prod.fst).filter
      (fun x => decide (x ∉ sortedAltIds)) ≠ [] then .error .valueError
  else .ok ()

/-- `ensure_chosen_alternatives_are_in_user_alt_ids`, choice_tools.py:1310-1343. -/
def ensureChosenInAltIds (w : Frame V) (choiceCol : String) (avail : List (V × String)) :
    Except Err Unit :=
  if (w.colList choiceCol).all (fun x => decide (x ∈ avail.map Prod.fst)) then .ok ()
  else .error .valueError

/-- `ensure_each_wide_obs_chose_an_available_alternative`, choice_tools.py:1346-1398: only rows with
some availability equal to zero are looked at; there the chosen alternative's must be 1. -/
def ensureChoseAvailable [Zero V] [One V] (w : Frame V) (choiceCol : String)
    (avail : List (V × String)) : Except Err Unit :=
  if (List.finRange w.numRows).any fun i =>
      (avail.any fun ac => decide (w.val ac.2 i = 0)) &&
        (match avail.lookup (w.val choiceCol i) with
          | none => true
          | some c => decide (w.val c i ≠ 1)) then
    .error .valueError
  else .ok ()

/-- One row of a long table: ids, choice, individual variables, alternative-specific variables. -/
structure LongRow (V : Type) where
  obs : V
  alt : V
  choice : V
  ind : List V
  spec : List V
  deriving DecidableEq

/-- The rows of the long table, choice_tools.py:1631-1721: every array is an
observations-by-alternatives grid read row by row; position `j` of the grid pairs the `j`-th
availability column (dictionary order) with the `j`-th alternative id (sorted), and cells with zero
availability are dropped.  (`astype(int)` is the identity on the integer ids the function expects.) -/
def wideGridRows [Semiring V] (w : Frame V) (indVars : List String)
    (altSpecific : List (String × List (V × String))) (avail : List (V × String))
    (obsCol choiceCol : String) : List (LongRow V) :=
  let sortedAltIds := npSort (npUnique (w.colList choiceCol))
  (List.finRange w.numRows).flatMap fun i =>
    ((avail.map Prod.snd).zip sortedAltIds).filterMap fun ca =>
      let a := w.val ca.1 i
      if a ≠ 0 then
        some { obs := a * w.val obsCol i
               alt := a * ca.2
               choice := if w.val choiceCol i = ca.2 then 1 else 0
               ind := indVars.map fun v => a * w.val v i
               spec := altSpecific.map fun nc =>
                 match nc.2.lookup ca.2 with
                 | some c => w.val c i
                 | none => 0 }
      else none

/-- `convert_wide_to_long`, choice_tools.py:1465-1741. -/
def convertWideToLong [Semiring V] (isNull : V → Bool) (w : Frame V) (indVars : List String)
    (altSpecific : List (String × List (V × String))) (avail : List (V × String))
    (obsCol choiceCol : String) : Except Err (List (LongRow V)) := do
  ensureColumnsInDataframe indVars w
  ensureColumnsInDataframe (avail.map Prod.snd) w
  ensureColumnsInDataframe (altSpecific.flatMap fun nc => nc.2.map Prod.snd) w
  ensureColumnsInDataframe [choiceCol, obsCol] w
  ensureUniqueObsIds w obsCol
  checkBlankChoices isNull w choiceCol
  ensureAllAltIdsChosen w choiceCol altSpecific avail
  ensureChosenInAltIds w choiceCol avail
  ensureChoseAvailable w choiceCol avail
  .ok (wideGridRows w indVars altSpecific avail obsCol choiceCol)

end Pylogit
