import Verif.Model.Predict
import Verif.Model.Params
import Verif.Model.FitStore
import Verif.Model.Random

/-!
# Model of the fitted probabilities and of the parameters a prediction takes from the model object

A fit ends with the probabilities at the estimated vector, computed by the estimation object from the
design matrix the model was built with; a later prediction builds its own design matrix and mappings.
-/

open Matrix

namespace Pylogit

noncomputable section

/-- The shapes read by `split_param_vec` in a fit, estimation.py:147-168 and nested_logit.py:228-240:
one column of `rows_to_alts` per alternative of the table, one design column per index coefficient, one
column of `rows_to_nests` per nest. -/
def fitDims (m : ChoiceModel ℝ) : Dims :=
  ⟨(npSort (npUnique (m.data.colList m.args.altIdCol))).length, m.design.length,
    nameCount m.args.nestSpec, nameCount m.args.mixingVars⟩

/-- `convenience_calc_probs` of the logit-type models, estimation.py:306-327, at the vector `x`, with the
mappings of the model's own table: probabilities of the choices and of all rows. -/
def fitProbs (m : ChoiceModel ℝ) (x : List ℝ) :
    Except Err ((Fin (originalOrderUniqueIds (m.data.colList m.args.obsIdCol)).length → ℝ) ×
      (Fin m.data.numRows → ℝ)) := do
  let sp := splitParamVec m.cls (fitDims m) x
  let v ← designDot m.design sp.index
  let h ← predictTransform m.cls (m.data.rowsToAlts m.args.altIdCol) m.args.interceptRefPos
    m.args.shapeRefPos ⟨sp.index, sp.intercepts, sp.shapes, sp.nests⟩ v
  let rto := m.data.rowsToObs m.args.obsIdCol
  .ok (chosenProbs rto (Matrix.of fun r o => rto r o * m.data.val m.args.choiceCol r) h,
    longProbs rto h)

/-- `convenience_calc_probs` of the nested logit model, nested_logit.py:238-256, given the nests as names
and lists of alternatives. -/
def fitNestedProbs (m : ChoiceModel ℝ) (nestSpec : List (String × List ℝ)) (x : List ℝ) :
    Except Err ((Fin (originalOrderUniqueIds (m.data.colList m.args.obsIdCol)).length → ℝ) ×
      (Fin m.data.numRows → ℝ)) := do
  let rtn ← m.data.rowsToNests m.args.altIdCol nestSpec
  let nests := x.take nestSpec.length
  let index := x.drop nestSpec.length
  if nests.length ≠ nestSpec.length ∨ m.design.length ≠ index.length then .error .valueError
  else
    let rto := m.data.rowsToObs m.args.obsIdCol
    let res ← calcNestedProbs (naturalizeNestCoefs fun j : Fin nestSpec.length => nests.getD j 0)
      (fun k : Fin m.design.length => index.getD k 0)
      (Matrix.of fun r (k : Fin m.design.length) => m.design[k] r) rto rtn
      (some (Matrix.of fun r o => rto r o * m.data.val m.args.choiceCol r)) "long_and_chosen_probs"
    match res with
    | .both c l => .ok (c, l)
    | _ => .error .valueError

/-- The parameter arrays of a prediction without `param_list`, base_multinomial_cm_v2.py:1896-1903.  The
coefficients are stored after the other three, so where they exist the others do. -/
def storedArrays (s : FitAttrs) : Except Err ParamArrays :=
  match s.coefs with
  | none => .error .attributeError
  | some c => .ok ⟨c.values, s.intercepts.map Series.values, s.shapes.map Series.values,
      s.nests.map Series.values⟩

/-- The fitted probabilities of a mixed logit model at the coefficients `coefs`: the draws and the expanded
design matrix of `fit_mle`, mixed_logit.py:577-589, and `convenience_calc_probs`, mixed_logit.py:270-288.  One
column per draw. -/
def mixedFitRng {R O A K ι : Type} {m : ℕ} [Fintype R] [Fintype O] [Fintype K] (g : Rng)
    (mixingPos : List K) (coefs : K ⊕ Fin mixingPos.length → ℝ) (design : Matrix R K ℝ) (altIDs : R → ι)
    (rowsToObs : Matrix R O ℝ) (rowsToAlts : Matrix R A ℝ) (rowsToMixers : Matrix R (Fin m) ℝ)
    (numDraws : IntArg) (seed : Option IntArg) (chosenRowToObs : Matrix R O ℝ) (s : g.State) :
    Except Err ((d : ℕ) × ProbResult R O (Fin d)) := do
  let draws ← normalDraws g m numDraws mixingPos.length seed s
  let design3d ← createExpandedDesign design draws.2.1 mixingPos rowsToMixers
  let res ← calcProbabilities (S := Empty) (I := Empty) (.vec coefs) (.three design3d)
    altIDs rowsToObs rowsToAlts mnlTransform none none (some chosenRowToObs) true
  .ok ⟨draws.1, res⟩

end

end Pylogit
