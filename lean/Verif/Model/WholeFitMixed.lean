import Verif.Model.WholeFitTypes
import Verif.Model.MixedFit

/-!
# Model of `fit_mle` and `predict` of the mixed logit model on tables
-/

open Matrix

namespace Pylogit

noncomputable section

/-- The column `rows_to_mixers` is built from, choice_tools.py:954-959, of the table of a fit or a prediction: a
`KeyError` where the table has no such column.  Without a mixing id there is no mapping, and `rows_to_mixers.shape`
(mixed_logit.py:578, base_multinomial_cm_v2.py:1937) is an `AttributeError`. -/
def mixingColumnIn (m : ChoiceModel ℝ) (df : Frame ℝ) : Except Err String :=
  match m.args.mixingIdCol with
  | none => .error .attributeError
  | some c => if c ∈ df.columns then .ok c else .error .keyError

/-- A three-dimensional design matrix: one number per row, draw, and parameter (design columns, then mixed
variables); and the column of the mixing units. -/
structure DrawnDesign (df : Frame ℝ) (k : ℕ) where
  mixCol : String
  numDraws : ℕ
  numMixed : ℕ
  values : Fin df.numRows → Fin numDraws → Fin k ⊕ Fin numMixed → ℝ

/-- The draws and the expanded design matrix of a table with the given columns: mixed_logit.py:574-588 in a fit,
base_multinomial_cm_v2.py:1936-1947 in a prediction; with the state the generator is left in. -/
def drawnDesign (g : Rng) (m : ChoiceModel ℝ) (df : Frame ℝ) (cols : List (Fin df.numRows → ℝ)) (numDraws : IntArg)
    (seed : Option IntArg) (s : g.State) : Except Err (DrawnDesign df cols.length × g.State) := do
  let mixCol ← mixingColumnIn m df
  let pos ← mixingPosOf m
  let draws ← normalDraws g (originalOrderUniqueIds (df.colList mixCol)).length numDraws pos.length seed s
  let posF ← columnPositions cols.length pos
  let design3d ← createExpandedDesign (Matrix.of fun r (k : Fin cols.length) => cols[k] r) draws.2.1 posF
    (df.rowsToObs mixCol)
  .ok (⟨mixCol, draws.1, posF.length, design3d⟩, draws.2.2)

/-- `MixedEstimator`, mixed_logit.py:171-375, for the model `m`: means first, then standard deviations.
`convenience_calc_fisher_approx`, mixed_logit.py:358-375, is a placeholder: minus the identity. -/
def mixedObject (m : ChoiceModel ℝ) (hrows : 0 < m.data.numRows) (X : DrawnDesign m.data m.design.length)
    (ridge : Option ℝ) : LogitObject :=
  haveI : Nonempty (Fin m.data.numRows) := ⟨⟨0, hrows⟩⟩
  .ofParts (twoParts m.design.length X.numMixed)
    (mixedEstimator X.values (m.data.rowsToObs m.args.obsIdCol) (m.data.rowsToObs X.mixCol)
      (m.data.val m.args.choiceCol) ridge none) fun _ => -1

/-- The coefficients of a mixed logit as a function of the position in the expanded design matrix. -/
def mixedCoefs (k j : ℕ) (x : List ℝ) : Fin k ⊕ Fin j → ℝ :=
  Sum.elim (fun i => x.getD i 0) fun i => x.getD (k + i) 0

/-- `convenience_calc_probs` of the mixed logit, mixed_logit.py:270-288: one column of probabilities per draw. -/
def fitMixedProbs (m : ChoiceModel ℝ) (X : DrawnDesign m.data m.design.length) (x : List ℝ) :
    Except Err ((Fin (originalOrderUniqueIds (m.data.colList m.args.obsIdCol)).length → Fin X.numDraws → ℝ) ×
      (Fin m.data.numRows → Fin X.numDraws → ℝ)) := do
  let rto := m.data.rowsToObs m.args.obsIdCol
  let res ← calcProbabilities (S := Empty) (I := Empty) (.vec (mixedCoefs m.design.length X.numMixed x))
    (.three X.values) (m.data.val m.args.altIdCol) rto (m.data.rowsToAlts m.args.altIdCol) mnlTransform none none
    (some (Matrix.of fun r o => rto r o * m.data.val m.args.choiceCol r)) true
  match res with
  | .both c l => .ok (c, l)
  | _ => .error .valueError

/-- `estimate` and `calc_and_store_post_estimation_results`, estimation.py:582-709 and 479-579, for probabilities with
one column per draw: residuals (line 550) and chi-squares (lines 445-447) have them too.  What
`add_mixl_specific_results_to_estimation_res`, mixed_logit.py:135-168, adds is not stored by `store_fit_results`. -/
def runMixedEstimation (solver : Solver) (m : ChoiceModel ℝ) (obj : LogitObject) {d : ℕ}
    (probs : List ℝ → Except Err
      ((Fin (originalOrderUniqueIds (m.data.colList m.args.obsIdCol)).length → Fin d → ℝ) ×
        (Fin m.data.numRows → Fin d → ℝ)))
    (constrained : Option (List ℤ)) (x : List ℝ) : Except Err FitResults := do
  let con ← constrainedArg obj.n constrained
  let e := obj.est con
  let init : Fin obj.n → ℝ := fun k => x.getD k 0
  let res ← solver obj.n e.negLLAndGrad init e.negHessian
  let st := estimate (fun _ _ _ => res.toOptResult) e init
  let pr ← probs (List.ofFn res.x)
  let resid : Fin m.data.numRows → Fin d → ℝ := fun r t => m.data.val m.args.choiceCol r - pr.2 r t
  .ok {
    n := obj.n
    split := splitParamVec m.cls (fitDims m) (List.ofFn res.x)
    gradient := st.gradient
    hessian := st.hessian
    fisher := obj.fisher res.x
    constrained := constrained
    finalLL := st.finalLL
    nullLL := st.nullLL
    rhoSq := st.rhoSq
    rhoBarSq := st.rhoBarSq
    success := res.success
    message := res.message
    chosenProbs := List.ofFn fun o => List.ofFn (pr.1 o)
    longProbs := List.ofFn fun r => List.ofFn (pr.2 r)
    residuals := List.ofFn fun r => List.ofFn (resid r)
    indChi := List.ofFn fun o => List.ofFn fun t => individualChiSquares (fun r => resid r t) (fun r => pr.2 r t)
      (m.data.rowsToObs m.args.obsIdCol) o }

/-- The arguments of `MixedLogit.fit_mle`, mixed_logit.py:491-503, that matter for its results. -/
structure MixedFitArgs extends FitArgs where
  numDraws : IntArg
  seed : Option IntArg

/-- `MixedLogit.fit_mle` from its arguments to the results, mixed_logit.py:558-627 with estimation.py:110-115; `s` is
the state of the global generator.  A table without rows has no mixing unit, which `get_normal_draws` refuses. -/
def mixedFit (g : Rng) (solver : Solver) (m : ChoiceModel ℝ) (a : MixedFitArgs) (s : g.State) :
    Except Err FitResults := do
  let x ← initPlain a.init
  let X ← drawnDesign g m m.data m.design a.numDraws a.seed s
  estimationChecks (a.ridge.map .num) (m.data.colList m.args.obsIdCol) .none
  if x.length ≠ m.design.length + X.1.numMixed then .error .valueError
  else if h : 0 < m.data.numRows then
    runMixedEstimation solver m (mixedObject m h X.1 a.ridge) (fitMixedProbs m X.1) a.constrained x
  else .error .assertionError

/-- A call of `MixedLogit.fit_mle`, made when the generator is in state `s`, as part of a history of calls. -/
def mixedFitCall (g : Rng) (solver : Solver) (m : ChoiceModel ℝ) (a : MixedFitArgs) (s : g.State) : FitCall :=
  ⟨a.ridge, fitOutcome a.justPoint (mixedFit g solver m a s)⟩

/-- What `predict` of a mixed logit returns: probabilities of the rows or of the choices. -/
abbrev MixedPrediction (df : Frame ℝ) (obsCol : String) :=
  (Fin df.numRows → ℝ) ⊕ (Fin (originalOrderUniqueIds (df.colList obsCol)).length → ℝ)

/-- `predict` for the mixed logit model on a table that has the intercept column if it needs one,
base_multinomial_cm_v2.py:1857-1908 and 1930-1960, with the state the generator is left in.  `names` is the attribute
`ind_var_names` at the time of the call: `fit_mle` appends the names of the standard deviations.  Outside intercepts and
shapes are ignored by the transformation (mixed_logit.py:82-103).  `prob_array.mean(axis=1)` raises `AttributeError`
when `calc_probabilities` returned a tuple. -/
def predictMixedFrame (env : Env ℝ) (g : Rng) (m : ChoiceModel ℝ) (names : List String) (stored : ParamArrays)
    (df : Frame ℝ) (paramList : Option ParamArrays) (returnLong : Bool) (choiceCol : Option String) (numDraws : IntArg)
    (seed : Option IntArg) (s : g.State) : Except Err (MixedPrediction df m.args.obsIdCol × g.State) := do
  predictChecks { m with indVarNames := names.map .str } df paramList returnLong choiceCol
  let design ← createDesignMatrix env.fmt env.fmtList df m.args.specification m.args.altIdCol m.args.names
  let choice ← choiceArray df choiceCol
  let X ← drawnDesign g m df design.1 numDraws seed s
  let p := paramList.getD stored
  if p.index.length ≠ design.1.length + X.1.numMixed then .error .valueError
  else do
    let rto := df.rowsToObs m.args.obsIdCol
    let res ← calcProbabilities (S := Empty) (I := Empty) (.vec (mixedCoefs design.1.length X.1.numMixed p.index))
      (.three X.1.values) (df.val m.args.altIdCol) rto (df.rowsToAlts m.args.altIdCol) mnlTransform none none
      (choice.map fun y => Matrix.of fun r o => rto r o * y r) returnLong
    match res with
    | .long l => .ok (.inl fun r => drawMean (l r), X.2)
    | .chosen c => .ok (.inr fun o => drawMean (c o), X.2)
    | .both _ _ => .error .attributeError

end

end Pylogit
