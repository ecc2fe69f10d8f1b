import Mathlib.Analysis.SpecialFunctions.Pow.Real
import Mathlib.Data.Matrix.Mul
import Mathlib.LinearAlgebra.Matrix.NonsingularInverse
import Verif.Model.ChoiceCalcs
import Verif.Model.Params

/-!
# Model of the storage of estimation results in `base_multinomial_cm_v2.py`

A pandas `Series` is a list of labels with a list of values.  "Not a number" is `none`; infinite
values that arise from dividing by a zero standard error are also `none`.
-/

open Matrix

namespace Pylogit

variable {V : Type}

/-- A pandas `Series`. -/
structure Series (V : Type) where
  index : List String
  values : List V

/-- `pd.Series(values, index=names)`: a `ValueError` when the lengths differ. -/
def mkSeries (values : List V) (names : List String) : Except Err (Series V) :=
  if values.length ≠ names.length then .error .valueError else .ok ⟨names, values⟩

/-- The name attributes of a model object, base_multinomial_cm_v2.py:894-910. -/
structure NameAttrs where
  indVarNames : List String
  interceptNames : Option (List String)
  shapeNames : Option (List String)
  nestNames : Option (List String)
  mixingVars : Option (List String)

/-- Python's `needle in hay` for strings. -/
def strIn (needle hay : String) : Bool := decide (needle.toList <:+: hay.toList)

/-- `_add_mixing_variable_names_to_individual_vars`, base_multinomial_cm_v2.py:1388-1405. -/
def addMixingNames (a : NameAttrs) : NameAttrs :=
  let alreadyIncluded := a.indVarNames.any fun x => strIn "Sigma " x
  match a.mixingVars with
  | some mv =>
      if alreadyIncluded then a
      else { a with indVarNames := a.indVarNames ++ mv.map fun x => "Sigma " ++ x }
  | none => a

/-- The names used by `_store_optional_parameters`, base_multinomial_cm_v2.py:1321-1327:
`default_name_str.format(x) for x in range(1, num_elements + 1)` unless names were given.  The
default strings end in the placeholder, so formatting appends the decimal number. -/
def optionalNames (given : Option (List String)) (defaultPrefix : String) (k : ℕ) : List String :=
  match given with
  | some names => names
  | none => (List.range k).map fun i => defaultPrefix ++ toString (i + 1)

/-- `_store_optional_parameters`, base_multinomial_cm_v2.py:1277-1339, and the `else` branches that
store `None` (1461-1462, 1474-1475, 1487-1488). -/
def storeOptional (params : Option (List V)) (given : Option (List String))
    (defaultPrefix : String) (allNames : List String) (allParams : List (List V)) :
    Except Err (Option (Series V) × List String × List (List V)) :=
  match params with
  | none => .ok (none, allNames, allParams)
  | some p => do
      let names := optionalNames given defaultPrefix p.length
      let s ← mkSeries p names
      return (some s, names ++ allNames, p :: allParams)

/-- The parameter attributes set by `store_fit_results`. -/
structure StoredParams (V : Type) where
  attrs : NameAttrs
  nests : Option (Series V)
  shapes : Option (Series V)
  intercepts : Option (Series V)
  coefs : Series V
  params : Series V

/-- The parameter part of `store_fit_results`, base_multinomial_cm_v2.py:1443-1493 with
1197-1201 and 1221-1225. -/
def storeParams (attrs : NameAttrs) (s : SplitParams V) : Except Err (StoredParams V) := do
  let attrs := addMixingNames attrs
  let (icpt, names1, params1) ←
    storeOptional s.intercepts attrs.interceptNames "Outside_ASC_" attrs.indVarNames [s.index]
  let (shp, names2, params2) ←
    storeOptional s.shapes attrs.shapeNames "Shape_" names1 params1
  let (nst, names3, params3) ←
    storeOptional s.nests attrs.nestNames "Nest_Param_" names2 params2
  let coefs ← mkSeries s.index attrs.indVarNames
  let params ← mkSeries params3.flatten names3
  return ⟨attrs, nst, shp, icpt, coefs, params⟩

noncomputable section

/-! ## Inference -/

variable {n : ℕ}

/-- `np.sqrt`, with NaN for negative input. -/
def sqrtNaN (x : ℝ) : Option ℝ := if x < 0 then none else some (Real.sqrt x)

/-- Division of a parameter by its standard error. -/
def divNaN (a : ℝ) (b : Option ℝ) : Option ℝ :=
  match b with
  | none => none
  | some b => if b = 0 then none else some (a / b)

/-- `2 * scipy.stats.norm.sf(np.abs(t))` for the survival function `sf`. -/
def twoSidedP (sf : ℝ → ℝ) (t : Option ℝ) : Option ℝ := t.map fun t => 2 * sf |t|

/-- The inferential attributes of a fitted model. -/
structure Inference (n : ℕ) where
  cov : Matrix (Fin n) (Fin n) ℝ
  stdErrs : Fin n → Option ℝ
  tvalues : Fin n → Option ℝ
  pvalues : Fin n → Option ℝ
  robustCov : Matrix (Fin n) (Fin n) ℝ
  robustStdErrs : Fin n → Option ℝ
  robustTStats : Fin n → Option ℝ
  robustPVals : Fin n → Option ℝ

/-- `_store_generic_inference_results`, base_multinomial_cm_v2.py:1209-1275 (without the naming,
which is in `storeParams`).  `scipy.linalg.inv` raises `LinAlgError` on a singular matrix. -/
def storeInference (sf : ℝ → ℝ) (params : Fin n → ℝ) (hessian fisher : Matrix (Fin n) (Fin n) ℝ) :
    Except Err (Inference n) :=
  open Classical in
  if ¬ IsUnit hessian.det then .error .linAlgError
  else
    let cov := (-1 : ℝ) • hessian⁻¹
    let se : Fin n → Option ℝ := fun i => sqrtNaN (cov i i)
    let t : Fin n → Option ℝ := fun i => divNaN (params i) (se i)
    let rcov := asymptoticCovariance hessian fisher
    let rse : Fin n → Option ℝ := fun i => sqrtNaN (rcov i i)
    let rt : Fin n → Option ℝ := fun i => divNaN (params i) (rse i)
    .ok ⟨cov, se, t, fun i => twoSidedP sf (t i), rcov, rse, rt, fun i => twoSidedP sf (rt i)⟩

/-- Python list indexing `xs[pos]` with negative positions counted from the end. -/
def pyGet {α : Type} (xs : List α) (pos : ℤ) : Except Err α :=
  let i := if pos < 0 then pos + xs.length else pos
  if h : 0 ≤ i ∧ i < xs.length then
    .ok (xs[i.toNat]'(by have := h.1; have := h.2; omega))
  else .error .indexError

/-- `series.loc[name] = np.nan`: every entry with that label. -/
def setNaN (names : Fin n → String) (name : String) (x : Fin n → Option ℝ) : Fin n → Option ℝ :=
  fun i => if names i = name then none else x i

/-- The inner loop of `_adjust_inferential_results_for_parameter_constraints`,
base_multinomial_cm_v2.py:1372-1373, for one series. -/
def adjustSeries (names : Fin n → String) (x : Fin n → Option ℝ) : List ℤ → Except Err (Fin n → Option ℝ)
  | [] => .ok x
  | pos :: rest => do
      let name ← pyGet (List.ofFn names) pos
      adjustSeries names (setNaN names name x) rest

/-- `_adjust_inferential_results_for_parameter_constraints`,
base_multinomial_cm_v2.py:1341-1375. -/
def adjustInference (names : Fin n → String) (constraints : Option (List ℤ)) (r : Inference n) :
    Except Err (Inference n) :=
  match constraints with
  | none => .ok r
  | some cs => do
      let se ← adjustSeries names r.stdErrs cs
      let t ← adjustSeries names r.tvalues cs
      let p ← adjustSeries names r.pvalues cs
      let rse ← adjustSeries names r.robustStdErrs cs
      let rt ← adjustSeries names r.robustTStats cs
      let rp ← adjustSeries names r.robustPVals cs
      return { r with stdErrs := se, tvalues := t, pvalues := p, robustStdErrs := rse,
                      robustTStats := rt, robustPVals := rp }

/-- `conf_int`, base_multinomial_cm_v2.py:1601-1613: the lower and upper columns, for the quantile
function `ppf` of the standard normal distribution. -/
def confIntAll (ppf : ℝ → ℝ) (params : Fin n → ℝ) (stdErrs : Fin n → Option ℝ) (alpha : ℝ) :
    Fin n → Option ℝ × Option ℝ :=
  let z := ppf (1 - alpha / 2)
  fun i => ((stdErrs i).map fun se => params i - z * se, (stdErrs i).map fun se => params i + z * se)

/-- `combined.loc[coefs, :]`, base_multinomial_cm_v2.py:1616-1617: for each requested label all
rows with that label; a missing label raises `KeyError`. -/
def locRows {α : Type} (names : Fin n → String) (rows : Fin n → α) :
    List String → Except Err (List α)
  | [] => .ok []
  | c :: cs =>
      if (List.finRange n).any fun i => names i = c then do
        let rest ← locRows names rows cs
        return ((List.finRange n).filter fun i => names i = c).map rows ++ rest
      else .error .keyError

/-- `conf_int`, base_multinomial_cm_v2.py:1574-1623.  Returning a data frame or an array only
changes the container. -/
def confInt (ppf : ℝ → ℝ) (names : Fin n → String) (params : Fin n → ℝ)
    (stdErrs : Fin n → Option ℝ) (alpha : ℝ) (coefs : Option (List String)) :
    Except Err (List (Option ℝ × Option ℝ)) :=
  let combined := confIntAll ppf params stdErrs alpha
  match coefs with
  | none => .ok (List.ofFn combined)
  | some cs => locRows names combined cs

/-- `compute_aic`, base_multinomial_cm_v2.py:611-639. -/
def computeAIC (logLikelihood : ℝ) (numParams : ℕ) : ℝ := -2 * logLikelihood + 2 * numParams

/-- `compute_bic`, base_multinomial_cm_v2.py:642-681. -/
def computeBIC (logLikelihood : ℝ) (numObs numParams : ℕ) : ℝ :=
  -2 * logLikelihood + Real.log numObs * numParams

end

end Pylogit
