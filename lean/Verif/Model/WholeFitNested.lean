import Verif.Model.WholeFitTypes
import Verif.Model.NestedFit

/-!
# Model of `fit_mle` of the nested logit model, from its arguments to the stored results
-/

open Matrix

namespace Pylogit

noncomputable section

/-- `NestedEstimator`, nested_logit.py:109-336, for the model `m` with the given mapping of rows to nests: nest
parameters first, then index coefficients.  `convenience_calc_fisher_approx`, nested_logit.py:321-337, is a
placeholder: minus the identity. -/
def nestedObject (m : ChoiceModel ℝ) (hrows : 0 < m.data.numRows) {k : ℕ}
    (rtn : Matrix (Fin m.data.numRows) (Fin k) ℝ) (ridge : Option ℝ) : LogitObject :=
  haveI : Nonempty (Fin m.data.numRows) := ⟨⟨0, hrows⟩⟩
  .ofParts (twoParts k m.design.length) (nestedEstimator (modelFitData m) rtn ridge none) fun _ => -1

/-- `NestedLogit.fit_mle` from its arguments to the results, nested_logit.py:495-577 with estimation.py:110-115,
given the nests as names and lists of alternatives.  Simplification as in `mnlFit` for a table without rows. -/
def nestedFit (solver : Solver) (m : ChoiceModel ℝ) (nestSpec : List (String × List ℝ)) (a : FitArgs) :
    Except Err FitResults := do
  let x ← initPlain a.init
  let rtn ← m.data.rowsToNests m.args.altIdCol nestSpec
  estimationChecks (a.ridge.map .num) (m.data.colList m.args.obsIdCol) .none
  checkInitLength .nested { fitDims m with numNests := nestSpec.length } false x
  if h : 0 < m.data.numRows then
    runEstimationWith solver m (nestedObject m h rtn a.ridge) (fitNestedProbs m nestSpec)
      (some (finalConstrainedPos nestSpec a.constrained)) x
  else .error .valueError

/-- A call of `NestedLogit.fit_mle` as part of a history of calls. -/
def nestedFitCall (solver : Solver) (m : ChoiceModel ℝ) (nestSpec : List (String × List ℝ)) (a : FitArgs) : FitCall :=
  ⟨a.ridge, fitOutcome a.justPoint (nestedFit solver m nestSpec a)⟩

end

end Pylogit
