import Verif.Model.Conversion

/-!
# Model of the warnings of the long/wide conversions of `src/pylogit/choice_tools.py`

`Verif.Model.Conversion` models what the conversions return; here the calls also carry the warnings
they emit, in order.  A warning keeps the numbers it reports, not its text.
-/

namespace Pylogit

variable {V : Type} [LinearOrder V]

/-- The warnings of `convert_long_to_wide` and `convert_wide_to_long`: fewer columns accounted for
than the table has, more of them, and a result of another shape than announced
(choice_tools.py:448-463, 1247-1253 and 1730-1738). -/
inductive ConvWarning where
  | unusedColumns (accounted total : ℕ)
  | tooManyColumns (accounted total : ℕ)
  | shape
  deriving DecidableEq

/-- `ensure_all_columns_are_used`, choice_tools.py:422-465. -/
def columnsWarning (accounted : ℕ) (df : Frame V) : List ConvWarning :=
  let total := df.columns.dedup.length
  if accounted = total then []
  else if accounted < total then [.unusedColumns accounted total]
  else [.tooManyColumns accounted total]

/-- The shape of the data frame `pd.concat(.., axis=1)` makes of the blocks, choice_tools.py:1238-1243:
as many rows as the longest block (pandas pads the others), and the columns of all blocks. -/
def WideTable.shape (t : WideTable V) : ℕ × ℕ :=
  let cols := t.columns "" ""
  ((cols.map fun c => c.2.length).foldr max 0, cols.length)

/-- The shape announced for the wide table, choice_tools.py:1103-1128. -/
def announcedWideShape (df : Frame V) (indVars altSpecificVars : List String)
    (subset : List (String × List V)) (obsCol altCol : String) : ℕ × ℕ :=
  let numObs := (npUnique (df.colList obsCol)).length
  let numAlts := (npUnique (df.colList altCol)).length
  (numObs, 1 + numAlts + 1 + indVars.length + altSpecificVars.length * numAlts +
    (subset.map fun s => s.2.length).sum)

/-- A call of `convert_long_to_wide` with its warnings, choice_tools.py:979-1256: the columns are
counted before anything is checked (1049-1056), so that the first warning is emitted even if the call
fails; the shape is compared last (1245-1253). -/
def longToWideCall [Ring V] (fmt : V → String) (df : Frame V)
    (indVars altSpecificVars : List String) (subset : List (String × List V))
    (obsCol altCol choiceCol : String) (altNames : Option (List (V × String))) (null : V) :
    Except Err (WideTable V) × List ConvWarning :=
  let first := columnsWarning
    (indVars.length + altSpecificVars.length + subset.length + [obsCol, altCol, choiceCol].length) df
  match convertLongToWide fmt df indVars altSpecificVars subset obsCol altCol choiceCol altNames
      null with
  | .error e => (.error e, first)
  | .ok t =>
    (.ok t, first ++
      if t.shape = announcedWideShape df indVars altSpecificVars subset obsCol altCol then []
      else [.shape])

/-- The number of rows announced for the long table: the sum of the availability columns of the
sorted chosen ids, choice_tools.py:1607-1609.  (The look-ups succeed: the dictionary has been checked
to hold all chosen ids.) -/
def announcedLongRows [AddMonoid V] (w : Frame V) (avail : List (V × String)) (choiceCol : String) :
    V :=
  ((npSort (npUnique (w.colList choiceCol))).map fun x =>
    (w.colList ((avail.lookup x).getD "")).sum).sum

/-- A call of `convert_wide_to_long` with its warnings, choice_tools.py:1465-1741.  The set of columns
is counted first (1526-1540).  At the end (1727-1738) the shape is compared; the returned frame has
three id columns and one column per variable, which is always the announced number
(1614-1623 and 1701-1706), so that only the numbers of rows can differ. -/
def wideToLongCall [Semiring V] (isNull : V → Bool) (w : Frame V) (indVars : List String)
    (altSpecific : List (String × List (V × String))) (avail : List (V × String))
    (obsCol choiceCol : String) : Except Err (List (LongRow V)) × List ConvWarning :=
  let first := columnsWarning
    (indVars ++ avail.map Prod.snd ++ [obsCol, choiceCol] ++
      altSpecific.flatMap fun nc => nc.2.map Prod.snd).dedup.length w
  match convertWideToLong isNull w indVars altSpecific avail obsCol choiceCol with
  | .error e => (.error e, first)
  | .ok rows =>
    (.ok rows, first ++
      if ((rows.length : ℕ) : V) = announcedLongRows w avail choiceCol then [] else [.shape])

end Pylogit
