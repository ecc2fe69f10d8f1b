import Mathlib.Analysis.SpecialFunctions.Pow.Real
import Mathlib.Algebra.Order.Floor.Semiring
import Verif.Model.Mappings
import Verif.Model.Design
import Verif.Model.ChoiceCalcs

/-!
# Model of `bootstrap_calcs.py` and `bootstrap_utils.py`

A 2D array of replicates is given by its columns, one list per parameter (`P`), so that
`ensure_samples_is_ndim_ndarray` (bootstrap_utils.py:30-41) passes.  `norm.ppf` and `norm.cdf` are
parameters.  `norm.ppf` is infinite at 0 and 1; the only call that can reach these values is
the one of
`calc_bias_correction_bca`, and there `calcBcaInterval` stops with an error (the code goes on with
`nan` percentiles, whose treatment depends on the NumPy version).
-/

namespace Pylogit

noncomputable section

open Classical

variable {P : Type}

/-- `check_conf_percentage_validity`, bootstrap_utils.py:14-27. -/
def checkConfPercentage : PyVal ℝ → Except Err ℝ
  | .num c => if 0 < c ∧ c < 100 then .ok c else .error .valueError
  | _ => .error .valueError

/-- `get_alpha_from_conf_percentage`, bootstrap_utils.py:44-49. -/
def alphaFromConf (c : ℝ) : ℝ := 100 - c

/-- The two interpolation methods used. -/
inductive Interp where
  | lower
  | higher

/-- `np.percentile(column, q, interpolation=...)` (external code: NumPy): the element of the sorted column
at the index `q / 100 * (n - 1)` rounded down or up; `ValueError` for `q` outside [0, 100] and
`IndexError` for an empty column. -/
def npPercentile (i : Interp) (xs : List ℝ) (q : ℝ) : Except Err ℝ :=
  if q < 0 ∨ 100 < q then .error .valueError
  else
    let idx := q / 100 * ((xs.length : ℝ) - 1)
    let pos := match i with
      | .lower => ⌊idx⌋₊
      | .higher => ⌈idx⌉₊
    match (npSort xs)[pos]? with
    | some x => .ok x
    | none => .error .indexError

/-- `calc_percentile_interval`, bootstrap_calcs.py:23-86: the endpoints for parameter `p`. -/
def calcPercentileInterval (reps : P → List ℝ) (conf : PyVal ℝ) (p : P) : Except Err (ℝ × ℝ) := do
  let c ← checkConfPercentage conf
  let alpha := alphaFromConf c
  let lowerPercent := alpha / 2
  let upperPercent := 100 - lowerPercent
  let lower ← npPercentile .lower (reps p) lowerPercent
  let upper ← npPercentile .higher (reps p) upperPercent
  .ok (lower, upper)

/-- `numerator / denominator` of `calc_bias_correction_bca`, bootstrap_calcs.py:116-117. -/
def shareBelow (xs : List ℝ) (mle : ℝ) : ℝ :=
  ((xs.filter fun x => x < mle).length : ℝ) / (xs.length : ℝ)

/-- `calc_bias_correction_bca`, bootstrap_calcs.py:89-119, for one parameter. -/
def biasCorrectionBca (ppf : ℝ → ℝ) (xs : List ℝ) (mle : ℝ) : ℝ := ppf (shareBelow xs mle)

/-- `calc_acceleration_bca`, bootstrap_calcs.py:122-160, for one parameter. -/
def accelerationBca (jack : List ℝ) : ℝ :=
  let mean := jack.sum / (jack.length : ℝ)
  let differences := jack.map fun x => mean - x
  let numerator := (differences.map fun d => d ^ 3).sum
  let denominator := 6 * ((differences.map fun d => d ^ 2).sum) ^ (1.5 : ℝ)
  numerator / (if denominator = 0 then 1e-16 else denominator)

/-- The last three statements of the percentile functions, bootstrap_calcs.py:203-206 and 250-253. -/
def bcaLevel (cdf : ℝ → ℝ) (z bias accel : ℝ) : ℝ :=
  let numerator := bias + z
  let denominator := 1 - accel * numerator
  cdf (bias + numerator / denominator) * 100

/-- `calc_lower_bca_percentile`, bootstrap_calcs.py:163-207. -/
def lowerBcaPercentile (ppf cdf : ℝ → ℝ) (alpha bias accel : ℝ) : ℝ :=
  bcaLevel cdf (ppf (alpha / (100 * 2))) bias accel

/-- `calc_upper_bca_percentile`, bootstrap_calcs.py:210-254. -/
def upperBcaPercentile (ppf cdf : ℝ → ℝ) (alpha bias accel : ℝ) : ℝ :=
  bcaLevel cdf (ppf (1 - alpha / (100 * 2))) bias accel

/-- `np.percentile(replicates, percents, axis=0)`: entry `i j` is column `j` at percent `i`. -/
def percentileTable (i : Interp) (reps : P → List ℝ) (percents : P → ℝ) : P → P → Except Err ℝ :=
  fun a b => npPercentile i (reps b) (percents a)

/-- `calc_bca_interval`, bootstrap_calcs.py:257-326: the endpoints for parameter `p`.  Where the bias
correction of `p` is infinite the model stops (see above). -/
def calcBcaInterval (ppf cdf : ℝ → ℝ) (reps jack : P → List ℝ) (mle : P → ℝ) (conf : PyVal ℝ)
    (p : P) : Except Err (ℝ × ℝ) := do
  let c ← checkConfPercentage conf
  let alpha := alphaFromConf c
  if shareBelow (reps p) (mle p) ≤ 0 ∨ 1 ≤ shareBelow (reps p) (mle p) then .error .valueError
  else
    let bias : P → ℝ := fun q => biasCorrectionBca ppf (reps q) (mle q)
    let accel : P → ℝ := fun q => accelerationBca (jack q)
    let lowerPercents : P → ℝ := fun q => lowerBcaPercentile ppf cdf alpha (bias q) (accel q)
    let upperPercents : P → ℝ := fun q => upperBcaPercentile ppf cdf alpha (bias q) (accel q)
    let lower ← percentileTable .lower reps lowerPercents p p
    let upper ← percentileTable .higher reps upperPercents p p
    .ok (lower, upper)

end

end Pylogit
