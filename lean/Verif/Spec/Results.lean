import Verif.Model.Results
import Verif.Spec.Params

/-!
# Specification vocabulary for reported results
-/

namespace Pylogit.Spec

variable {V : Type}

/-- `names` are the labels a user expects for one kind of parameters: one label per parameter, the
names they supplied if any, and otherwise the prefix followed by 1, 2, 3, ... -/
structure Labels (params : Option (List V)) (given : Option (List String)) (pre : String)
    (names : List String) : Prop where
  length : names.length = (params.getD []).length
  supplied : params.isSome → ∀ g, given = some g → names = g
  default : given = none → ∀ i (h : i < names.length), names[i] = pre ++ toString (i + 1)

/-- No label of the list contains the text `Sigma `. -/
def NoSigma (names : List String) : Prop := ∀ x ∈ names, ¬ ("Sigma ".toList <:+: x.toList)

/-- The position meant by a possibly negative Python index into a sequence of length `n`. -/
def PosIs (n : ℕ) (pos : ℤ) (i : Fin n) : Prop := pos = i ∨ pos = (i : ℤ) - n

end Pylogit.Spec
