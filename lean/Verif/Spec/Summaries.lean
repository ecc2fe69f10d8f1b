import Verif.Model.Summaries

/-!
# Specification vocabulary for the summaries of a model object
-/

namespace Pylogit.Spec

/-- No call of the history, started on `s`, stores its results without an exception. -/
def NoneStores (sf : ℝ → ℝ) : List FitCall → FitState → Prop
  | [], _ => True
  | c :: cs, s =>
      (∀ r, c.outcome = .results r → (fitCall sf c s).2 ≠ none) ∧
        NoneStores sf cs (fitCall sf c s).1

/-- A model object on which nothing was stored yet. -/
def Unfitted (s : FitState) : Prop :=
  s.attrs = { names := s.attrs.names }

end Pylogit.Spec
