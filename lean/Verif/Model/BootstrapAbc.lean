import Mathlib.Data.Matrix.Mul
import Verif.Model.Intervals
import Verif.Model.Estimation

/-!
# Model of `bootstrap_abc.py`

`fit` is `model_obj.fit_mle(init_vals, weights=w, just_point=True, **fit_kwargs)['x']` as a function of
the weights.  A weight that is not a finite number (`nan`, `inf`) is `none`; likewise for the
intermediate scalars.  The number of observations is the cardinality of the observation type `O`
(`model_obj.data[obs_id_col].unique().size` and `empirical_influence.shape[0]`).

Not modelled: the type checks at bootstrap_abc.py:25-79 (they pass for the arrays built here).
-/

open Finset Matrix

namespace Pylogit

noncomputable section

open Classical

variable {R O P : Type}

/-- What the ABC functions read from the model object and from `fit_kwargs`: `rows_to_obs`, the fit as
a function of the weights, and the original weights (1 when `fit_kwargs` has none,
bootstrap_abc.py:190-196). -/
structure AbcModel (R O P : Type) where
  rowsToObs : Matrix R O ℝ
  fit : (R → Option ℝ) → P → ℝ
  origWeights : R → ℝ

/-- `create_long_form_weights`, bootstrap_abc.py:82-123, for one column of weights. -/
def createLongFormWeights [Fintype O] (rowsToObs : Matrix R O ℝ) (wide : O → ℝ) : R → ℝ :=
  rowsToObs *ᵥ wide

/-- The fit with the long version of `wide`, multiplied by the original weights; `none` stands for a
column of weights that are not finite. -/
def AbcModel.fitWide [Fintype O] (m : AbcModel R O P) : Option (O → ℝ) → P → ℝ
  | some wide => m.fit fun r => some (createLongFormWeights m.rowsToObs wide r * m.origWeights r)
  | none => m.fit fun _ => none

section

variable [Fintype O] [DecidableEq O]

/-- `term_plus`, bootstrap_abc.py:126-225 (lines 181-183, 205-206, 211-213, 219-221). -/
def abcTermPlus (m : AbcModel R O P) (ε : ℝ) (obs : O) : P → ℝ :=
  let initWide : O → ℝ := fun _ => 1 / (Fintype.card O : ℝ)
  let initPlus : O → ℝ := fun o => (1 - ε) * initWide o
  let current : O → ℝ := Function.update initPlus obs (initPlus obs + ε)
  m.fitWide (some current)

/-- `term_minus`, bootstrap_abc.py:126-225 (lines 181-184, 208-209, 214-217, 222-224). -/
def abcTermMinus (m : AbcModel R O P) (ε : ℝ) (obs : O) : P → ℝ :=
  let initWide : O → ℝ := fun _ => 1 / (Fintype.card O : ℝ)
  let initMinus : O → ℝ := fun o => (1 + ε) * initWide o
  let current : O → ℝ := Function.update initMinus obs (initMinus obs - ε)
  m.fitWide (some current)

/-- `calc_empirical_influence_abc`, bootstrap_abc.py:228-280. -/
def empiricalInfluence (termPlus termMinus : O → P → ℝ) (ε : ℝ) : O → P → ℝ := fun o p =>
  if |termPlus o p - termMinus o p| ≤ 1e-12 then 0
  else (termPlus o p - termMinus o p) / (2 * ε)

/-- `calc_2nd_order_influence_abc`, bootstrap_abc.py:283-355. -/
def secondOrderInfluence (mle : P → ℝ) (termPlus termMinus : O → P → ℝ) (ε : ℝ) : O → P → ℝ :=
  fun o p =>
    if |termPlus o p + termMinus o p - 2 * mle p| ≤ 1e-12 then 0
    else (termPlus o p - 2 * mle p + termMinus o p) / ε ^ 2

/-- `calc_std_error_abc`, bootstrap_abc.py:421-447. -/
def stdErrorAbc (influence : O → P → ℝ) (p : P) : ℝ :=
  (∑ o, influence o p ^ 2) ^ (0.5 : ℝ) / (Fintype.card O : ℝ)

/-- `calc_acceleration_abc`, bootstrap_abc.py:450-478 (0/0 is `nan`). -/
def accelerationAbc (influence : O → P → ℝ) (p : P) : Option ℝ :=
  let numerator := ∑ o, influence o p ^ 3
  let denominator := 6 * (∑ o, influence o p ^ 2) ^ (1.5 : ℝ)
  if denominator = 0 then none else some (numerator / denominator)

/-- `calc_bias_abc`, bootstrap_abc.py:481-508. -/
def biasAbc (second : O → P → ℝ) (p : P) : ℝ :=
  (∑ o, second o p) / (2 * (Fintype.card O : ℝ) ^ 2)

/-- `term_1_wide_weights` and `term_3_wide_weights` (with `-epsilon`) for parameter `p`,
bootstrap_abc.py:690-696. -/
def quadraticWeights (influence : O → P → ℝ) (stdError : P → ℝ) (ε : ℝ) (p : P) :
    Option (O → ℝ) :=
  let n := (Fintype.card O : ℝ)
  if n ^ 2 * stdError p = 0 then none
  else some fun o => 1 / n + ε * (influence o p / (n ^ 2 * stdError p))

/-- `efron_quadratic_coef_abc`, bootstrap_abc.py:628-747.  `denominator` is not restricted to
`diff_idx` at lines 744-746, so the assignment raises `ValueError` when some but not all parameters
differ. -/
def efronQuadraticCoef (m : AbcModel R O P) (mle : P → ℝ) (influence : O → P → ℝ)
    (stdError : P → ℝ) (ε : ℝ) : Except Err (P → Option ℝ) :=
  let term1 : P → ℝ := fun p => m.fitWide (quadraticWeights influence stdError ε p) p
  let term3 : P → ℝ := fun p => m.fitWide (quadraticWeights influence stdError (-ε) p) p
  let differs : P → Prop := fun p => ¬ |term1 p + term3 p - 2 * mle p| ≤ 1e-10
  if ∀ p, ¬ differs p then .ok fun _ => some 0
  else if ∀ p, differs p then
    .ok fun p =>
      let denominator := 2 * stdError p * ε ^ 2
      if denominator = 0 then none
      else some ((term1 p - 2 * mle p + term3 p) / denominator)
  else .error .valueError

/-- `term_1_wide_weights` (with `sign` 1) and `term_3_wide_weights` (with `sign` -1) of `calc_quadratic_coef_abc` for
parameter `p`, bootstrap_abc.py:559-574. -/
def bookQuadraticWeights (influence : O → P → ℝ) (stdError : P → ℝ) (ε sign : ℝ) (p : P) : Option (O → ℝ) :=
  let n := (Fintype.card O : ℝ)
  if n ^ 2 * stdError p = 0 then none
  else some fun o => (1 - ε) * (1 / n) + sign * ε * (influence o p / (n ^ 2 * stdError p))

/-- `calc_quadratic_coef_abc`, bootstrap_abc.py:511-625, which the library never calls.  Here the denominator is a
scalar (line 614), so that the assignment at lines 620-623 never raises. -/
def calcQuadraticCoef (m : AbcModel R O P) (mle : P → ℝ) (influence : O → P → ℝ) (stdError : P → ℝ) (ε : ℝ) :
    P → Option ℝ := fun p =>
  let term1 := m.fitWide (bookQuadraticWeights influence stdError ε 1 p) p
  let term3 := m.fitWide (bookQuadraticWeights influence stdError ε (-1) p) p
  if |term1 + term3 - 2 * mle p| ≤ 1e-10 then some 0
  else if ε ^ 2 = 0 then none
  else some ((term1 - 2 * mle p + term3) / ε ^ 2)

/-- `calc_total_curvature_abc`, bootstrap_abc.py:750-779. -/
def totalCurvature (bias stdError : ℝ) (quadratic : Option ℝ) : Option ℝ :=
  quadratic.bind fun q => if stdError = 0 then none else some (bias / stdError - q)

/-- `calc_bias_correction_abc`, bootstrap_abc.py:782-807 (`norm.ppf` is not finite outside (0, 1)). -/
def biasCorrectionAbc (ppf cdf : ℝ → ℝ) (accel curvature : Option ℝ) : Option ℝ :=
  accel.bind fun a => curvature.bind fun c =>
    let inner := 2 * cdf a * cdf (-1 * c)
    if 0 < inner ∧ inner < 1 then some (ppf inner) else none

/-- `wide_weights_all_params[:, p]` of `efron_endpoint_from_percentile_abc`,
bootstrap_abc.py:966-977. -/
def endpointWeights (ppf : ℝ → ℝ) (percentile : ℝ) (biasCorrection accel : Option ℝ)
    (stdError : ℝ) (influence : O → ℝ) : Option (O → ℝ) :=
  biasCorrection.bind fun b => accel.bind fun a =>
    let n := (Fintype.card O : ℝ)
    let z := b + ppf (percentile * 0.01)
    if (1 - a * z) ^ 2 = 0 ∨ stdError * n ^ 2 = 0 then none
    else
      let lam := z / (1 - a * z) ^ 2
      let multiplier := lam / (stdError * n ^ 2)
      some fun o => 1 / n + multiplier * influence o

/-- `efron_endpoint_from_percentile_abc`, bootstrap_abc.py:903-1001. -/
def efronEndpoint (m : AbcModel R O P) (ppf : ℝ → ℝ) (percentile : ℝ)
    (biasCorrection accel : P → Option ℝ) (stdError : P → ℝ) (influence : O → P → ℝ) : P → ℝ :=
  fun p => m.fitWide (endpointWeights ppf percentile (biasCorrection p) (accel p) (stdError p)
    fun o => influence o p) p

/-- `wide_weights_all_params[:, p]` of `calc_endpoint_from_percentile_abc`, bootstrap_abc.py:862-874. -/
def bookEndpointWeights (ppf : ℝ → ℝ) (percentile : ℝ) (biasCorrection accel : Option ℝ)
    (stdError : ℝ) (influence : O → ℝ) : Option (O → ℝ) :=
  biasCorrection.bind fun b => accel.bind fun a =>
    let n := (Fintype.card O : ℝ)
    let z := b + ppf (percentile * 0.01)
    if (1 - a * z) ^ 2 = 0 ∨ stdError = 0 then none
    else
      let lam := z / (1 - a * z) ^ 2
      let multiplier := lam / stdError
      some fun o => 1 / n + multiplier * influence o

/-- `calc_endpoint_from_percentile_abc`, bootstrap_abc.py:810-900, which the library never calls. -/
def calcEndpoint (m : AbcModel R O P) (ppf : ℝ → ℝ) (percentile : ℝ)
    (biasCorrection accel : P → Option ℝ) (stdError : P → ℝ) (influence : O → P → ℝ) : P → ℝ :=
  fun p => m.fitWide (bookEndpointWeights ppf percentile (biasCorrection p) (accel p) (stdError p)
    fun o => influence o p) p

/-- `calc_abc_interval`, bootstrap_abc.py:1163-1281, with `calc_influence_arrays_for_abc` (358-418) and
`efron_endpoints_for_abc_confidence_interval` (1078-1160). -/
def calcAbcInterval (ppf cdf : ℝ → ℝ) (m : AbcModel R O P) (mle : P → ℝ) (conf : PyVal ℝ) (ε : ℝ) :
    Except Err (P → ℝ × ℝ) := do
  let c ← checkConfPercentage conf
  let termPlus := abcTermPlus m ε
  let termMinus := abcTermMinus m ε
  let influence := empiricalInfluence termPlus termMinus ε
  let second := secondOrderInfluence mle termPlus termMinus ε
  let accel := accelerationAbc influence
  let stdError := stdErrorAbc influence
  let bias := biasAbc second
  let quadratic ← efronQuadraticCoef m mle influence stdError ε
  let curvature : P → Option ℝ := fun p => totalCurvature (bias p) (stdError p) (quadratic p)
  let biasCorrection : P → Option ℝ := fun p => biasCorrectionAbc ppf cdf (accel p) (curvature p)
  let alpha := alphaFromConf c
  let lowerPercentile := alpha / 2
  let upperPercentile := 100 - lowerPercentile
  let lower := efronEndpoint m ppf lowerPercentile biasCorrection accel stdError influence
  let upper := efronEndpoint m ppf upperPercentile biasCorrection accel stdError influence
  .ok fun p => (lower p, upper p)

end

/-- The fit of an actual pylogit model, seen as a function of the weights.  `fitMle` (Model/Estimation)
drops its weights; the conversion of `nan` weights is therefore immaterial. -/
def abcModelOf [Fintype P] [DecidableEq P] (minimize : Minimizer P)
    (mk : Option (R → ℝ) → Estimator P) (init : P → ℝ) (rowsToObs : Matrix R O ℝ)
    (origWeights : R → ℝ) : AbcModel R O P where
  rowsToObs := rowsToObs
  fit := fun w => (fitMle minimize mk (some fun r => (w r).getD 0) init).params
  origWeights := origWeights

end

end Pylogit
