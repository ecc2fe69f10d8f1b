import Mathlib.Data.Finset.Card
import Mathlib.Data.Fintype.Basic
import Verif.Model.Design

/-!
# Specification vocabulary for resampling
-/

namespace Pylogit.Spec

variable {ι κ V : Type}

/-- Observation `o` chose alternative `a` in the data. -/
def Chose [One V] {n : ℕ} (obs : Fin n → ι) (alt : Fin n → κ) (choice : Fin n → V) (o : ι) (a : κ) :
    Prop :=
  ∃ r, obs r = o ∧ alt r = a ∧ choice r = 1

/-- Every observation in the data chose exactly one alternative. -/
def EachChoseOne [One V] {n : ℕ} (obs : Fin n → ι) (alt : Fin n → κ) (choice : Fin n → V) : Prop :=
  ∀ r, ∃! a, Chose obs alt choice (obs r) a

/-- What is known about `np.random.choice(ids, size)` whatever the random state: `size` elements of
`ids`.  Nothing is assumed about drawing from an empty list, which only succeeds for `size = 0`. -/
def ValidDraw (draw : κ → List ι → ℕ → List ι) : Prop :=
  ∀ a ids size, ids ≠ [] ∨ size = 0 →
    (draw a ids size).length = size ∧ ∀ x ∈ draw a ids size, x ∈ ids

/-- The rows of a table that belong to observation `o`, in order, as cell functions. -/
def obsRows [DecidableEq V] (df : Frame V) (obsCol : String) (o : V) : List (String → V) :=
  ((List.finRange df.numRows).filter fun r => df.val obsCol r = o).map fun r c => df.val c r

/-- The rows of a table that belong to any other observation, in order. -/
def otherRows [DecidableEq V] (df : Frame V) (obsCol : String) (o : V) : List (String → V) :=
  ((List.finRange df.numRows).filter fun r => df.val obsCol r ≠ o).map fun r c => df.val c r

end Pylogit.Spec
