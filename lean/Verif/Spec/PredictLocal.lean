import Verif.Model.Predict
import Verif.Spec.Choice

/-!
# Specification vocabulary: observations of a table inside a larger or reordered table
-/

namespace Pylogit.Spec

/-- `df` holds some of the observations of `df'`, in any order: row `r` of `df` is row `e r` of `df'`, no row
is used twice, and all rows that `df'` has for the observations of `df` are there.  The columns are the same
(cells of columns that a table does not have are never read). -/
structure PartOf (obsCol : String) (df df' : Frame ℝ) (e : Fin df.numRows → Fin df'.numRows) : Prop where
  columns : ∀ c, c ∈ df.columns ↔ c ∈ df'.columns
  once : Function.Injective e
  cells : ∀ c r, df.val c r = df'.val c (e r)
  whole : ∀ r r', df'.val obsCol r' = df.val obsCol r → ∃ s, e s = r'

/-- The two tables have the same alternatives. -/
def SameAlternatives (altCol : String) (df df' : Frame ℝ) : Prop :=
  ∀ a, (∃ r, df.val altCol r = a) ↔ ∃ r, df'.val altCol r = a

/-- What C93 says of two results of `predict`: the same error, or the same numbers for the same rows and the
same observations. -/
def AgreeOn {df df' : Frame ℝ} (obsCol : String) (e : Fin df.numRows → Fin df'.numRows)
    (x : Except Err (ProbResult (Fin df.numRows)
      (Fin (originalOrderUniqueIds (df.colList obsCol)).length) Unit))
    (x' : Except Err (ProbResult (Fin df'.numRows)
      (Fin (originalOrderUniqueIds (df'.colList obsCol)).length) Unit)) : Prop :=
  (∃ err, x = .error err ∧ x' = .error err) ∨
  ∃ res res', x = .ok res ∧ x' = .ok res' ∧
    ((longPart res).isSome ↔ (longPart res').isSome) ∧
    ((chosenPart res).isSome ↔ (chosenPart res').isSome) ∧
    (∀ l l', longPart res = some l → longPart res' = some l' → ∀ r, l r () = l' (e r) ()) ∧
    ∀ c c', chosenPart res = some c → chosenPart res' = some c' →
      ∀ o o', (originalOrderUniqueIds (df.colList obsCol)).get o =
        (originalOrderUniqueIds (df'.colList obsCol)).get o' → c o () = c' o' ()

/-- What `predict` of the nested logit says about the rows. -/
def nestedRows {R O N : Type} : NestedResult R O N → Option (R → ℝ)
  | .both _ l => some l
  | .long l => some l
  | .chosen _ => none
  | .dict d => some d.longProbs

/-- What `predict` of the nested logit says about the observations. -/
def nestedChoices {R O N : Type} : NestedResult R O N → Option (O → ℝ)
  | .both c _ => some c
  | .long _ => none
  | .chosen c => some c
  | .dict d => d.chosenProbs

/-- As `AgreeOn`, for the nested logit. -/
def NestedAgreeOn {N : Type} {df df' : Frame ℝ} (obsCol : String)
    (e : Fin df.numRows → Fin df'.numRows)
    (x : Except Err (NestedResult (Fin df.numRows)
      (Fin (originalOrderUniqueIds (df.colList obsCol)).length) N))
    (x' : Except Err (NestedResult (Fin df'.numRows)
      (Fin (originalOrderUniqueIds (df'.colList obsCol)).length) N)) : Prop :=
  (∃ err, x = .error err ∧ x' = .error err) ∨
  ∃ res res', x = .ok res ∧ x' = .ok res' ∧
    ((nestedRows res).isSome ↔ (nestedRows res').isSome) ∧
    ((nestedChoices res).isSome ↔ (nestedChoices res').isSome) ∧
    (∀ l l', nestedRows res = some l → nestedRows res' = some l' → ∀ r, l r = l' (e r)) ∧
    ∀ c c', nestedChoices res = some c → nestedChoices res' = some c' →
      ∀ o o', (originalOrderUniqueIds (df.colList obsCol)).get o =
        (originalOrderUniqueIds (df'.colList obsCol)).get o' → c o = c' o'

end Pylogit.Spec
