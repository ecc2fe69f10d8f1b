import Verif.Model.Conversion

/-!
# Model of the table `convert_wide_to_long` returns
-/

namespace Pylogit

variable {V : Type} [LinearOrder V]

/-- The names of the columns, choice_tools.py:1699-1705. -/
def longColumns (obsCol : String) (newAltIdName : Option String) (choiceCol : String) (indVars : List String)
    (altSpecific : List (String × List (V × String))) : List String :=
  [obsCol, newAltIdName.getD "alt_id", choiceCol] ++ indVars ++ altSpecific.map Prod.fst

/-- The cells of a row, in the order of the columns, choice_tools.py:1711-1715. -/
def LongRow.cells (r : LongRow V) : List V := [r.obs, r.alt, r.choice] ++ r.ind ++ r.spec

/-- The data frame made of the rows, choice_tools.py:1719-1724: a column is read by its name. -/
def longFrame [Zero V] (columns : List String) (rows : List (LongRow V)) : Frame V where
  columns := columns
  numRows := rows.length
  val := fun c r => rows[r].cells.getD (columns.idxOf c) 0

/-- `convert_wide_to_long` up to the returned data frame, choice_tools.py:1465-1741.  `np.rec.fromarrays`
(external code) raises `ValueError` for a repeated name.  A simplification: it also removes blanks around
the names; the names here have none. -/
def convertWideToLongTable [Semiring V] (isNull : V → Bool) (w : Frame V) (indVars : List String)
    (altSpecific : List (String × List (V × String))) (avail : List (V × String))
    (obsCol choiceCol : String) (newAltIdName : Option String) : Except Err (Frame V) := do
  let rows ← convertWideToLong isNull w indVars altSpecific avail obsCol choiceCol
  let columns := longColumns obsCol newAltIdName choiceCol indVars altSpecific
  if ¬ columns.Nodup then .error .valueError
  else .ok (longFrame columns rows)

end Pylogit
