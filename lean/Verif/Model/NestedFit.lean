import Verif.Model.FitPredict
import Verif.Model.Conversion

/-!
# Model of the log-likelihood a fit of the nested logit model computes
-/

open Matrix

namespace Pylogit

noncomputable section

/-- `convenience_calc_log_likelihood` of the nested logit model (without ridge and weights), nested_logit.py:258-275,
right after the construction of the model: the mappings of its table (base_multinomial_cm_v2.py:920-951), the check
of the observation ids (estimation.py:115), the check of the length of the vector (nested_logit.py:174-196) and
`split_param_vec` (nested_logit.py:79-123), given the nests as names and lists of alternatives. -/
def fitNestedLogLik (m : ChoiceModel ℝ) (nestSpec : List (String × List ℝ)) (x : List ℝ) : Except Err ℝ := do
  let rtn ← m.data.rowsToNests m.args.altIdCol nestSpec
  ensureContiguity (m.data.colList m.args.obsIdCol)
  let nests := x.take nestSpec.length
  let index := x.drop nestSpec.length
  if nests.length ≠ nestSpec.length ∨ m.design.length ≠ index.length then .error .valueError
  else
    .ok (calcNestedLogLikelihood (naturalizeNestCoefs fun j : Fin nestSpec.length => nests.getD j 0)
      (fun k : Fin m.design.length => index.getD k 0)
      (Matrix.of fun r (k : Fin m.design.length) => m.design[k] r) (m.data.rowsToObs m.args.obsIdCol) rtn
      (m.data.val m.args.choiceCol) none none)

end

end Pylogit
