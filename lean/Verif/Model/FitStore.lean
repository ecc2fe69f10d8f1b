import Verif.Model.Results

/-!
# Model of `store_fit_results` as a sequence of assignments to a model object

`store_fit_results` writes some forty attributes one after the other, and the model object keeps
those already written when one of the later steps raises.  Each step below is one such assignment:
a function from the attributes before it to the attributes after it, or an exception.
-/

namespace Pylogit

noncomputable section

/-- A square data frame whose rows and columns carry the same labels. -/
structure LabelledMatrix where
  labels : List String
  rows : List (List ℝ)

/-- A data frame: row labels and named columns. -/
structure SummaryTable where
  index : List String
  columns : List (String × List (Option ℝ))

/-- The rows of `fit_summary`, base_multinomial_cm_v2.py:1096-1109. -/
structure FitSummary where
  numParams : ℕ
  numObs : ℕ
  nullLL : ℝ
  finalLL : ℝ
  rhoSq : ℝ
  rhoBarSq : ℝ
  message : String

/-- The result attributes of a model object.  `none` is an attribute that does not exist yet, or
that holds `None`. -/
structure FitAttrs where
  names : NameAttrs
  logLik : Option ℝ := none
  fittedProbs : Option (List (List ℝ)) := none
  longFittedProbs : Option (List (List ℝ)) := none
  longResiduals : Option (List (List ℝ)) := none
  indChiSquareds : Option (List (List ℝ)) := none
  chiSquare : Option ℝ := none
  success : Option Bool := none
  message : Option String := none
  rhoSq : Option ℝ := none
  rhoBarSq : Option ℝ := none
  nullLL : Option ℝ := none
  intercepts : Option (Series ℝ) := none
  shapes : Option (Series ℝ) := none
  nests : Option (Series ℝ) := none
  coefs : Option (Series ℝ) := none
  gradient : Option (Series ℝ) := none
  hessian : Option LabelledMatrix := none
  cov : Option LabelledMatrix := none
  params : Option (Series ℝ) := none
  stdErrs : Option (Series (Option ℝ)) := none
  tvalues : Option (Series (Option ℝ)) := none
  pvalues : Option (Series (Option ℝ)) := none
  fisher : Option LabelledMatrix := none
  robustCov : Option LabelledMatrix := none
  robustStdErrs : Option (Series (Option ℝ)) := none
  robustTStats : Option (Series (Option ℝ)) := none
  robustPVals : Option (Series (Option ℝ)) := none
  summary : Option SummaryTable := none
  nobs : Option ℕ := none
  dfModel : Option ℕ := none
  dfResid : Option ℤ := none
  llf : Option ℝ := none
  bse : Option (Series (Option ℝ)) := none
  aic : Option ℝ := none
  bic : Option ℝ := none
  fitSummary : Option FitSummary := none

/-- The dictionary handed to `store_fit_results`, estimation.py:651-709 with
base_multinomial_cm_v2.py:41-55.  All needed keys are present, since every `fit_mle` passes the
dictionary that `estimate` built, so `_check_result_dict_for_needed_keys` (1377-1386) has nothing to
report.  One-dimensional arrays of probabilities, residuals and chi-squares are rows of length one;
the mixed logit model has one column per draw. -/
structure FitResults where
  n : ℕ
  split : SplitParams ℝ
  gradient : Fin n → ℝ
  hessian : Matrix (Fin n) (Fin n) ℝ
  fisher : Matrix (Fin n) (Fin n) ℝ
  constrained : Option (List ℤ)
  finalLL : ℝ
  nullLL : ℝ
  rhoSq : ℝ
  rhoBarSq : ℝ
  success : Bool
  message : String
  chosenProbs : List (List ℝ)
  longProbs : List (List ℝ)
  residuals : List (List ℝ)
  indChi : List (List ℝ)

/-- One assignment. -/
abbrev Step := FitAttrs → Except Err FitAttrs

/-- Running statements in order: an exception stops the run and the object keeps its state. -/
def runSteps : List Step → FitAttrs → FitAttrs × Option Err
  | [], s => (s, none)
  | f :: fs, s =>
      match f s with
      | .error e => (s, some e)
      | .ok s' => runSteps fs s'

/-- `pd.DataFrame(value_array, index=names, columns=names)`: a `ValueError` when the sizes differ. -/
def mkLabelled {n : ℕ} (M : Matrix (Fin n) (Fin n) ℝ) (names : List String) :
    Except Err LabelledMatrix :=
  if n ≠ names.length then .error .valueError
  else .ok ⟨names, List.ofFn fun i => List.ofFn (M i)⟩

/-- `_store_basic_estimation_results`, base_multinomial_cm_v2.py:953-993. -/
def storeBasic (r : FitResults) : Step := fun s =>
  .ok { s with
    logLik := some r.finalLL, fittedProbs := some r.chosenProbs,
    longFittedProbs := some r.longProbs, longResiduals := some r.residuals,
    indChiSquareds := some r.indChi, chiSquare := some (r.indChi.map List.sum).sum,
    success := some r.success, message := some r.message,
    rhoSq := some r.rhoSq, rhoBarSq := some r.rhoBarSq, nullLL := some r.nullLL }

/-- `_add_mixing_variable_names_to_individual_vars`, base_multinomial_cm_v2.py:1388-1405. -/
def storeMixingNames : Step := fun s => .ok { s with names := addMixingNames s.names }

/-- The labels added by one kind of optional parameters, base_multinomial_cm_v2.py:1319-1330. -/
def optionalLabels (params : Option (List ℝ)) (given : Option (List String))
    (defaultPrefix : String) : List String :=
  match params with
  | none => []
  | some p => optionalNames given defaultPrefix p.length

/-- `all_names`, base_multinomial_cm_v2.py:1444-1488. -/
def allNames (r : FitResults) (a : NameAttrs) : List String :=
  optionalLabels r.split.nests a.nestNames "Nest_Param_" ++
    (optionalLabels r.split.shapes a.shapeNames "Shape_" ++
      (optionalLabels r.split.intercepts a.interceptNames "Outside_ASC_" ++ a.indVarNames))

/-- `np.concatenate(all_params)`, base_multinomial_cm_v2.py:1445-1488 and 1222. -/
def allParams (r : FitResults) : List ℝ :=
  r.split.nests.getD [] ++ (r.split.shapes.getD [] ++ (r.split.intercepts.getD [] ++ r.split.index))

/-- The series stored for one kind of optional parameters, base_multinomial_cm_v2.py:1335-1338, or
`None`. -/
def optionalSeries (params : Option (List ℝ)) (given : Option (List String))
    (defaultPrefix : String) : Except Err (Option (Series ℝ)) :=
  match params with
  | none => .ok none
  | some p => do
      let s ← mkSeries p (optionalNames given defaultPrefix p.length)
      return some s

/-- base_multinomial_cm_v2.py:1451-1462. -/
def storeIntercepts (r : FitResults) : Step := fun s => do
  let x ← optionalSeries r.split.intercepts s.names.interceptNames "Outside_ASC_"
  return { s with intercepts := x }

/-- base_multinomial_cm_v2.py:1464-1475. -/
def storeShapes (r : FitResults) : Step := fun s => do
  let x ← optionalSeries r.split.shapes s.names.shapeNames "Shape_"
  return { s with shapes := x }

/-- base_multinomial_cm_v2.py:1477-1488. -/
def storeNests (r : FitResults) : Step := fun s => do
  let x ← optionalSeries r.split.nests s.names.nestNames "Nest_Param_"
  return { s with nests := x }

/-- base_multinomial_cm_v2.py:1197-1201. -/
def storeCoefs (r : FitResults) : Step := fun s => do
  let x ← mkSeries r.split.index s.names.indVarNames
  return { s with coefs := some x }

/-- base_multinomial_cm_v2.py:1203-1207. -/
def storeGradient (r : FitResults) (names : List String) : Step := fun s => do
  let x ← mkSeries (List.ofFn r.gradient) names
  return { s with gradient := some x }

/-- base_multinomial_cm_v2.py:1209-1213. -/
def storeHessian (r : FitResults) (names : List String) : Step := fun s => do
  let x ← mkLabelled r.hessian names
  return { s with hessian := some x }

/-- base_multinomial_cm_v2.py:1215-1219.  `self.hessian` was assigned by the step before, so the
matrix inverted is the one just stored; `scipy.linalg.inv` raises `LinAlgError` when it is
singular. -/
def storeCov (r : FitResults) (names : List String) : Step := fun s =>
  open Classical in
  if ¬ IsUnit r.hessian.det then .error .linAlgError
  else do
    let x ← mkLabelled ((-1 : ℝ) • r.hessian⁻¹) names
    return { s with cov := some x }

/-- base_multinomial_cm_v2.py:1221-1225. -/
def storeAllParams (r : FitResults) (names : List String) : Step := fun s => do
  let x ← mkSeries (allParams r) names
  return { s with params := some x }

/-- The diagonal of a stored data frame. -/
def LabelledMatrix.diag (M : LabelledMatrix) : List ℝ :=
  (List.range M.rows.length).map fun i => ((M.rows.getD i []).getD i 0)

/-- base_multinomial_cm_v2.py:1227-1231.  The attributes `cov` and `params` read from here on were
assigned by an earlier step; a missing one would raise `AttributeError`. -/
def storeStdErrs (names : List String) : Step := fun s =>
  match s.cov with
  | none => .error .attributeError
  | some c => do
      let x ← mkSeries (c.diag.map sqrtNaN) names
      return { s with stdErrs := some x }

/-- Division of two series with the same labels, elementwise. -/
def divSeries (a : Series ℝ) (b : Series (Option ℝ)) : Series (Option ℝ) :=
  ⟨a.index, List.zipWith divNaN a.values b.values⟩

/-- base_multinomial_cm_v2.py:1233-1235. -/
def storeTvalues : Step := fun s =>
  match s.params, s.stdErrs with
  | some p, some se => .ok { s with tvalues := some (divSeries p se) }
  | _, _ => .error .attributeError

/-- base_multinomial_cm_v2.py:1237-1242. -/
def storePvalues (sf : ℝ → ℝ) (names : List String) : Step := fun s =>
  match s.tvalues with
  | none => .error .attributeError
  | some t => do
      let x ← mkSeries (t.values.map (twoSidedP sf)) names
      return { s with pvalues := some x }

/-- base_multinomial_cm_v2.py:1244-1248. -/
def storeFisher (r : FitResults) (names : List String) : Step := fun s => do
  let x ← mkLabelled r.fisher names
  return { s with fisher := some x }

/-- base_multinomial_cm_v2.py:1250-1256, reading back the Hessian and the Fisher information just
stored. -/
def storeRobustCov (r : FitResults) (names : List String) : Step := fun s => do
  let x ← mkLabelled (asymptoticCovariance r.hessian r.fisher) names
  return { s with robustCov := some x }

/-- base_multinomial_cm_v2.py:1258-1262. -/
def storeRobustStdErrs (names : List String) : Step := fun s =>
  match s.robustCov with
  | none => .error .attributeError
  | some c => do
      let x ← mkSeries (c.diag.map sqrtNaN) names
      return { s with robustStdErrs := some x }

/-- base_multinomial_cm_v2.py:1264-1266. -/
def storeRobustT : Step := fun s =>
  match s.params, s.robustStdErrs with
  | some p, some se => .ok { s with robustTStats := some (divSeries p se) }
  | _, _ => .error .attributeError

/-- base_multinomial_cm_v2.py:1268-1273. -/
def storeRobustP (sf : ℝ → ℝ) (names : List String) : Step := fun s =>
  match s.robustTStats with
  | none => .error .attributeError
  | some t => do
      let x ← mkSeries (t.values.map (twoSidedP sf)) names
      return { s with robustPVals := some x }

/-- `series.loc[name] = np.nan`. -/
def Series.setNaN (s : Series (Option ℝ)) (name : String) : Series (Option ℝ) :=
  ⟨s.index, List.zipWith (fun l v => if l = name then none else v) s.index s.values⟩

/-- The attributes adjusted for constraints, base_multinomial_cm_v2.py:1360-1365, as the in-place
update of each of them. -/
def constrainedAttrs : List ((Series (Option ℝ) → Series (Option ℝ)) → FitAttrs → FitAttrs) :=
  [fun f s => { s with stdErrs := s.stdErrs.map f },
   fun f s => { s with tvalues := s.tvalues.map f },
   fun f s => { s with pvalues := s.pvalues.map f },
   fun f s => { s with robustStdErrs := s.robustStdErrs.map f },
   fun f s => { s with robustTStats := s.robustTStats.map f },
   fun f s => { s with robustPVals := s.robustPVals.map f }]

/-- The body of the loops of `_adjust_inferential_results_for_parameter_constraints`,
base_multinomial_cm_v2.py:1369-1373. -/
def constrainOne (upd : (Series (Option ℝ) → Series (Option ℝ)) → FitAttrs → FitAttrs) (pos : ℤ) :
    Step := fun s =>
  match s.params with
  | none => .error .assertionError
  | some p => do
      let name ← pyGet p.index pos
      return upd (fun x => x.setNaN name) s

/-- `_adjust_inferential_results_for_parameter_constraints`, base_multinomial_cm_v2.py:1341-1375. -/
def constrainSteps (r : FitResults) : List Step :=
  match r.constrained with
  | none => []
  | some cs => constrainedAttrs.flatMap fun upd => cs.map fun pos => constrainOne upd pos

/-- `_create_results_summary`, base_multinomial_cm_v2.py:995-1029.  The seven series carry the same
labels, so `pd.concat(..., axis=1)` puts them side by side. -/
def storeSummary : Step := fun s =>
  match s.params, s.stdErrs, s.tvalues, s.pvalues, s.robustStdErrs, s.robustTStats, s.robustPVals with
  | some p, some se, some t, some pv, some rse, some rt, some rp =>
      .ok { s with summary := some ⟨p.index,
        [("parameters", p.values.map some), ("std_err", se.values), ("t_stats", t.values),
         ("p_values", pv.values), ("robust_std_err", rse.values), ("robust_t_stats", rt.values),
         ("robust_p_values", rp.values)]⟩ }
  | _, _, _, _, _, _, _ => .error .notImplementedError

/-- `_record_values_for_fit_summary_and_statsmodels`, base_multinomial_cm_v2.py:1031-1071. -/
def recordValues : Step := fun s =>
  match s.fittedProbs, s.params, s.logLik, s.stdErrs with
  | some fp, some p, some ll, some se =>
      .ok { s with
        nobs := some fp.length, dfModel := some p.values.length,
        dfResid := some ((fp.length : ℤ) - p.values.length), llf := some ll, bse := some se,
        aic := some (computeAIC ll p.values.length),
        bic := some (computeBIC ll fp.length p.values.length) }
  | _, _, _, _ => .error .notImplementedError

/-- `_create_fit_summary`, base_multinomial_cm_v2.py:1073-1115. -/
def storeFitSummary : Step := fun s =>
  match s.dfModel, s.nobs, s.nullLL, s.logLik, s.rhoSq, s.rhoBarSq, s.message with
  | some k, some n, some l0, some ll, some rho, some rhoBar, some msg =>
      .ok { s with fitSummary := some ⟨k, n, l0, ll, rho, rhoBar, msg⟩ }
  | _, _, _, _, _, _, _ => .error .notImplementedError

/-- The statements of `store_fit_results` after the names of the index variables have been settled,
base_multinomial_cm_v2.py:1451-1509. -/
def storeSteps (sf : ℝ → ℝ) (r : FitResults) (names : List String) : List Step :=
  [storeIntercepts r, storeShapes r, storeNests r, storeCoefs r, storeGradient r names,
   storeHessian r names, storeCov r names, storeAllParams r names, storeStdErrs names, storeTvalues,
   storePvalues sf names, storeFisher r names, storeRobustCov r names, storeRobustStdErrs names,
   storeRobustT, storeRobustP sf names] ++ constrainSteps r ++
  [storeSummary, recordValues, storeFitSummary]

/-- `store_fit_results`, base_multinomial_cm_v2.py:1407-1510. -/
def storeFitResults (sf : ℝ → ℝ) (r : FitResults) (s : FitAttrs) : FitAttrs × Option Err :=
  runSteps (storeBasic r :: storeMixingNames ::
    storeSteps sf r (allNames r (addMixingNames s.names))) s

/-! ## Histories of calls of `fit_mle` -/

/-- What one call of `fit_mle` does to the stored results: it raises before anything is stored (bad
arguments, an exception in the optimiser), it is a `just_point=True` call that only returns the
optimiser's answer, or it reaches `store_fit_results`; conditional_logit.py:355-418,
mixed_logit.py:531-627 and likewise for the other models. -/
inductive FitOutcome where
  | failed (e : Err)
  | justPoint
  | results (r : FitResults)

/-- A call of `fit_mle`: its `ridge` argument and what happens. -/
structure FitCall where
  ridge : Option ℝ
  outcome : FitOutcome

/-- The model object: the ridge parameter of the last call and the result attributes. -/
structure FitState where
  ridgeParam : Option ℝ
  attrs : FitAttrs

/-- One call of `fit_mle`.  `self.ridge_param = ridge` comes before the estimation
(conditional_logit.py:373, clog_log.py:699, scobit.py:810, uneven_logit.py:810, asym_logit.py:1001,
nested_logit.py:505, mixed_logit.py:567).  Simplification: a call that raises on its keyword
arguments, before this assignment, is not a call of this history. -/
def fitCall (sf : ℝ → ℝ) (c : FitCall) (s : FitState) : FitState × Option Err :=
  match c.outcome with
  | .failed e => ({ s with ridgeParam := c.ridge }, some e)
  | .justPoint => ({ s with ridgeParam := c.ridge }, none)
  | .results r =>
      let res := storeFitResults sf r s.attrs
      (⟨c.ridge, res.1⟩, res.2)

/-- A history of calls, each of whose exceptions the caller catches. -/
def fitCalls (sf : ℝ → ℝ) : List FitCall → FitState → FitState
  | [], s => s
  | c :: cs, s => fitCalls sf cs (fitCall sf c s).1

end

end Pylogit
