import Mathlib.Analysis.SpecialFunctions.Log.Basic
import Mathlib.Data.Matrix.Mul
import Verif.Model.ChoiceCalcs

/-!
# Specification vocabulary for choice probabilities

None of these definitions refers to how the code computes anything.
-/

open Finset

namespace Pylogit.Spec

variable {R O D : Type}

/-- `M` is the 0/1 membership matrix of the assignment `f` of rows to columns. -/
def Indicates [DecidableEq O] (M : Matrix R O ℝ) (f : R → O) : Prop :=
  ∀ r o, M r o = if f r = o then 1 else 0

/-- The rows of observation `o`. -/
def rowsOf [Fintype R] [DecidableEq O] (f : R → O) (o : O) : Finset R := {r | f r = o}

/-- The textbook logit probability of row `r`: its exponentiated utility divided by the total
over the rows of the same observation. -/
noncomputable def logitProb [Fintype R] [DecidableEq O] (f : R → O) (h : R → ℝ) (r : R) : ℝ :=
  Real.exp (h r) / ∑ s ∈ rowsOf f (f r), Real.exp (h s)

/-- Every observation has exactly one chosen row, `c o`, marked 1; all other rows are 0. -/
structure OneChoice (f : R → O) (choice : R → ℝ) (c : O → R) : Prop where
  mem : ∀ o, f (c o) = o
  one : ∀ o, choice (c o) = 1
  zero : ∀ r, r ≠ c (f r) → choice r = 0

/-- The long-format probabilities contained in a result, if any. -/
def longPart : ProbResult R O D → Option (R → D → ℝ)
  | .both _ l => some l
  | .long l => some l
  | .chosen _ => none

/-- The chosen-alternative probabilities contained in a result, if any. -/
def chosenPart : ProbResult R O D → Option (O → D → ℝ)
  | .both c _ => some c
  | .long _ => none
  | .chosen c => some c

end Pylogit.Spec
