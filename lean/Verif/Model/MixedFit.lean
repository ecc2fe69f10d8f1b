import Verif.Model.FitPredict
import Verif.Model.Conversion

/-!
# Model of the log-likelihood a fit of the mixed logit model computes
-/

open Matrix

namespace Pylogit

noncomputable section

/-- The column `rows_to_mixers` is built from, choice_tools.py:954-959: a `KeyError` where the table has no such column.
Without a mixing id there is no mapping, and `rows_to_mixers.shape` (mixed_logit.py:578) is an `AttributeError`. -/
def mixingColumn (m : ChoiceModel ℝ) : Except Err String :=
  match m.args.mixingIdCol with
  | none => .error .attributeError
  | some c => if c ∈ m.data.columns then .ok c else .error .keyError

/-- `len(self.mixing_pos)`, mixed_logit.py:581: a `TypeError` for `None`. -/
def mixingPosOf (m : ChoiceModel ℝ) : Except Err (List ℕ) :=
  match m.mixingPos with
  | none => .error .typeError
  | some l => .ok l

/-- `design[:, mixing_pos]`, mixed_logit_calcs.py:152: an `IndexError` for a position outside the matrix. -/
def columnPositions (n : ℕ) (pos : List ℕ) : Except Err (List (Fin n)) :=
  pos.mapM fun p => if h : p < n then .ok ⟨p, h⟩ else .error .indexError

/-- `convenience_calc_log_likelihood` of the mixed logit model (without weights), mixed_logit.py:290-307, right after
the construction of the model: the mappings of its table (base_multinomial_cm_v2.py:920-951), the draws and the
expanded design matrix of `fit_mle` (mixed_logit.py:572-588), the check of the observation ids (estimation.py:115)
and the check of the length of the vector (mixed_logit.py:106-132).  A table without rows has no mixing unit,
which `get_normal_draws` refuses. -/
def fitMixedLogLik (g : Rng) (m : ChoiceModel ℝ) (numDraws : IntArg) (seed : Option IntArg) (ridge : Option ℝ)
    (x : List ℝ) (s : g.State) : Except Err ℝ := do
  let mixCol ← mixingColumn m
  let pos ← mixingPosOf m
  let rtm := m.data.rowsToObs mixCol
  let draws ← normalDraws g (originalOrderUniqueIds (m.data.colList mixCol)).length numDraws pos.length seed s
  let posF ← columnPositions m.design.length pos
  let design3d ← createExpandedDesign (Matrix.of fun r (k : Fin m.design.length) => m.design[k] r) draws.2.1
    posF rtm
  ensureContiguity (m.data.colList m.args.obsIdCol)
  if x.length ≠ m.design.length + posF.length then .error .valueError
  else if h : 0 < m.data.numRows then
    have : Nonempty (Fin m.data.numRows) := ⟨⟨0, h⟩⟩
    .ok (mixedLogLikelihood (Sum.elim (fun k : Fin m.design.length => x.getD k 0)
        (fun j : Fin posF.length => x.getD (m.design.length + j) 0)) design3d
      (m.data.rowsToObs m.args.obsIdCol) rtm (m.data.val m.args.choiceCol) ridge none)
  else .error .assertionError

end

end Pylogit
