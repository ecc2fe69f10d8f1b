import Verif.Model.Float

/-!
# Specification vocabulary for floating point results
-/

namespace Pylogit.Spec

variable {A : FloatFormat}

/-- A finite number. -/
def IsFinite (x : Fl A) : Prop := ∃ y : A.Num, x = .fin y

/-- A finite number with the given property. -/
def IsNum (x : Fl A) (p : ℝ → Prop) : Prop := ∃ y : A.Num, x = .fin y ∧ p y.1

/-- A positive number that is at most one. -/
def IsProb (x : Fl A) : Prop := IsNum x fun y => 0 < y ∧ y ≤ 1

end Pylogit.Spec
