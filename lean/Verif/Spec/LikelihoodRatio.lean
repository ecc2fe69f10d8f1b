import Verif.Spec.WholeFitTypes
import Verif.Spec.WholeFitNested
import Verif.Spec.WholeFitMixed

/-!
# Specification vocabulary for comparisons of fits
-/

namespace Pylogit.Spec

/-- A model object has attributes `t` after calls of `fit_mle`, the last of which that got to its results was `call`,
which stored them without an exception. -/
def HoldsResultsOf (label : PyVal ℝ → String) (sf : ℝ → ℝ) (m : ChoiceModel ℝ) (call : FitCall) (t : FitAttrs) : Prop :=
  ∃ before after, (fitCall sf call (fitCalls sf before (freshFit label m))).2 = none ∧
    (∀ d ∈ after, ∀ r, d.outcome ≠ .results r) ∧
    t = (fitCalls sf (before ++ call :: after) (freshFit label m)).attrs

/-- The second fit reports a log-likelihood that is at least that of the first: the likelihood ratio statistic
`2 (L' - L)` is not negative. -/
def FitsAtLeastAsWell (t t' : FitAttrs) : Prop :=
  ∃ L L', t.llf = some L ∧ t'.llf = some L' ∧ t.logLik = some L ∧ t'.logLik = some L' ∧ 0 ≤ 2 * (L' - L)

/-- The rho-squared of the second fit is at least that of the first. -/
def RhoAtLeast (t t' : FitAttrs) : Prop :=
  ∃ ρ ρ', t.rhoSq = some ρ ∧ t'.rhoSq = some ρ' ∧ ρ ≤ ρ'

/-- The index of every row of the caller's table, for a specification with the described columns `cols`; a column
`intercept` that the table lacks is one of ones. -/
noncomputable def callersIndex (df : Frame ℝ) (altCol : String) (cols : List (ColDesc ℝ)) (beta : List ℝ) :
    Fin df.numRows → ℝ :=
  rowIndex ⟨df.columns, df.numRows, fun c r => if c = "intercept" ∧ "intercept" ∉ df.columns then 1 else df.val c r⟩
    altCol cols beta

end Pylogit.Spec
