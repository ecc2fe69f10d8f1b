import Verif.Spec.Separation
import Verif.Spec.Reorder

/-!
# Specification vocabulary: when two fits say the same
-/

namespace Pylogit.Spec

/-- Two model objects hold the same results: all of them, except that the optimiser may have said something else about
itself. -/
def SameResults (t t' : FitAttrs) : Prop :=
  ∃ ok msg, t' = { t with
    success := some ok, message := some msg, fitSummary := t.fitSummary.map fun y => { y with message := msg } }

/-- Two model objects hold the same results, except for those that list rows or observations, and what the optimiser
said about itself. -/
def SameInference (t t' : FitAttrs) : Prop :=
  ∃ ok msg fp lp lr ic, t' = { t with
    success := some ok, message := some msg, fitSummary := t.fitSummary.map fun y => { y with message := msg }
    fittedProbs := fp, longFittedProbs := lp, longResiduals := lr, indChiSquareds := ic }

/-- The fit stopped at `x`, where the gradient it stored is zero except at the constrained positions, and no utility
is clipped. -/
def StoppedAt (df : Frame ℝ) (altCol : String) (cols : List (ColDesc ℝ)) (con : Option (List ℤ))
    (x : Fin cols.length → ℝ) (t : FitAttrs) : Prop :=
  (∃ labels, t.params = some ⟨labels, List.ofFn x⟩) ∧
  (∃ labels g, t.gradient = some ⟨labels, List.ofFn g⟩ ∧
    ∀ i : Fin cols.length, (∀ z ∈ con.getD [], ¬ PosIs cols.length z i) → g i = 0) ∧
  ∀ r, |rowIndex df altCol cols (List.ofFn x) r| < 700

end Pylogit.Spec
