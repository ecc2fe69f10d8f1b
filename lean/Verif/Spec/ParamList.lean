import Verif.Model.ParamList

/-!
# Specification: the parameter lists that `predict` documents
-/

namespace Pylogit.Spec

/-- A missing array, or an array with `n` rows and the given further dimensions. -/
def MissingOrRows (x : ParamObj) (n : ℕ) (rest : List ℕ) : Prop := x = .none ∨ x = .array (n :: rest)

/-- A parameter list as the documentation of `predict` asks for: four elements, the first an array and the
others arrays or `None`, all of them one-dimensional, or all two-dimensional with the same number of columns,
with one row per index coefficient, outside intercept, shape parameter and nest. -/
def DocumentedList (nIndex nIcpt nShape nNest : ℕ) (pl : ParamListArg) : Prop :=
  ∃ (rest : List ℕ) (b c d : ParamObj), rest.length ≤ 1 ∧
    pl = .list [.array (nIndex :: rest), b, c, d] ∧
    MissingOrRows b nIcpt rest ∧ MissingOrRows c nShape rest ∧ MissingOrRows d nNest rest

/-- A list of four elements of which the first is no array or another is neither `None` nor an array. -/
def WrongTypes (pl : ParamListArg) : Prop :=
  ∃ a b c d : ParamObj, pl = .list [a, b, c, d] ∧
    ((∀ s, a ≠ .array s) ∨ b = .other ∨ c = .other ∨ d = .other)

end Pylogit.Spec
