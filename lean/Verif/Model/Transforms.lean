import Mathlib.Analysis.SpecialFunctions.Pow.Real
import Mathlib.Data.Fin.Tuple.Basic
import Verif.Model.ChoiceCalcs

/-!
# Model of the utility transformations and their derivatives

`conditional_logit.py`, `clog_log.py`, `scobit.py`, `uneven_logit.py`, `asym_logit.py`.

There are `n + 1` alternatives, indexed by `Fin (n + 1)`.  Guards on `inf` cannot fire over the
reals and are omitted; guards on exact zeros are kept.  The transformations return 2D one-column
arrays in the code; here they return the column.  2D parameter arrays (posterior samples) are
not modelled for the shape and intercept parameters.
-/

open Matrix

namespace Pylogit

noncomputable section

variable {R K ι : Type} {n : ℕ}

/-- `np.log` followed by `x[np.isneginf(x)] = -1 * max_comp_value`
(asym_logit.py:292-294, 297-300, 410-414, 417-421; clog_log.py:169-171). -/
def logGuard (x : ℝ) : ℝ := if x = 0 then -1 * maxCompValue else Real.log x

/-- `needed_idxs = range(J); needed_idxs.remove(ref)`; `all_intercepts[needed_idxs] = intercepts`
on zeros, or all zeros when there is no reference position or no intercepts
(asym_logit.py:315-334, scobit.py:156-177, uneven_logit.py:210-229, clog_log.py:180-199). The `i`-th element of
`range(n+1)` without `ref` is `ref.succAbove i`. -/
def allIntercepts (ref : Option (Fin (n + 1))) (ip : Option (Fin n → ℝ)) : Fin (n + 1) → ℝ :=
  match ref, ip with
  | some p, some a => Fin.insertNth (α := fun _ => ℝ) p 0 a
  | _, _ => fun _ => 0

/-- `create_calc_dh_d_alpha`: the columns of `rows_to_alts` other than the reference position
(asym_logit.py:666-707, scobit.py, uneven_logit.py, clog_log.py:374-415 alike). -/
def dhDAlpha (ref : Fin (n + 1)) (rowsToAlts : Matrix R (Fin (n + 1)) ℝ) : Matrix R (Fin n) ℝ :=
  fun r i => rowsToAlts r (ref.succAbove i)

/-! ## MNL -/

/-- `_mnl_utility_transform`, conditional_logit.py:84-100. -/
def mnlTransform {A S I : Type} : Transform R A S I ι := fun v _ _ _ _ => v

/-- `MNLEstimator.set_derivatives`, conditional_logit.py:177-189: the identity matrix; there are no
shape or intercept parameters. -/
def mnlDerivs [DecidableEq R] : Derivs R Empty Empty where
  dhdc := fun _ e => e.elim
  dhdalpha := fun _ e => e.elim
  dhdv := 1

/-! ## Clog-log -/

/-- Data dependent part of `_cloglog_utility_transform`, clog_log.py:162-174. -/
def clogH (v : ℝ) : ℝ :=
  if v ≥ 3.7 then Real.exp v else logGuard (Real.exp (Real.exp v) - 1)

/-- `_cloglog_utility_transform`, clog_log.py:116-208. -/
def clogTransform {S : Type} (ref : Option (Fin (n + 1))) :
    Transform R (Fin (n + 1)) S (Fin n) ι :=
  fun v _ rta _ ip r => clogH (v r) + (rta *ᵥ allIntercepts ref ip) r

/-- One diagonal entry of `_cloglog_transform_deriv_v`, clog_log.py:251-278. -/
def clogDerivV (v : ℝ) : ℝ :=
  let expNegV := if Real.exp (-1 * v) = 0 then minCompValue else Real.exp (-1 * v)
  let denomPart1 := 1 - Real.exp (-1 * Real.exp v)
  if denomPart1 = 0 then 1 else 1 / (denomPart1 * expNegV)

/-! ## Scobit -/

/-- Data dependent part of `_scobit_utility_transform` (without the intercept),
scobit.py:192-204, for natural shape `c`. -/
def scobitH (c v : ℝ) : ℝ :=
  -(Real.log ((1 + Real.exp (-1 * v)) ^ c - 1))

/-- `_scobit_utility_transform`, scobit.py:111-213.  `shape_params` is always an array for this
model; the `none` case does not arise. -/
def scobitTransform (ref : Option (Fin (n + 1))) :
    Transform R (Fin (n + 1)) (Fin (n + 1)) (Fin n) ι :=
  fun v _ rta shape ip r =>
    match shape with
    | some s =>
        (rta *ᵥ allIntercepts ref ip) r + scobitH ((rta *ᵥ fun j => Real.exp (s j)) r) (v r)
    | none => 0

/-- One diagonal entry of `_scobit_transform_deriv_v`, scobit.py:265-285. -/
def scobitDerivV (c v : ℝ) : ℝ :=
  let expNegV := Real.exp (-1 * v)
  let poweredTerm := (1 + expNegV) ^ c
  let smallPoweredTerm := (1 + expNegV) ^ (c - 1)
  if expNegV = 0 ∨ poweredTerm - 1 = 0 then 1
  else c * expNegV * smallPoweredTerm / (poweredTerm - 1)

/-- One entry of `curve_derivs` in `_scobit_transform_deriv_shape`, scobit.py:346-361. -/
def scobitDerivShape (c v : ℝ) : ℝ :=
  let expNegV := Real.exp (-1 * v)
  let poweredTerm := (1 + expNegV) ^ c
  if poweredTerm - 1 = 0 then -1
  else (-1 * Real.log (1 + expNegV) * poweredTerm / (poweredTerm - 1)) * c

/-! ## Uneven -/

/-- Data dependent part of `_uneven_utility_transform`, uneven_logit.py:170-203. -/
def unevenH (c v : ℝ) : ℝ :=
  v + Real.log (1 + Real.exp (-1 * v)) - Real.log (1 + Real.exp (-1 * c * v))

/-- `_uneven_utility_transform`, uneven_logit.py:118-238. The `none` shape case does not arise. -/
def unevenTransform (ref : Option (Fin (n + 1))) :
    Transform R (Fin (n + 1)) (Fin (n + 1)) (Fin n) ι :=
  fun v _ rta shape ip r =>
    match shape with
    | some s =>
        unevenH ((rta *ᵥ fun j => Real.exp (s j)) r) (v r) + (rta *ᵥ allIntercepts ref ip) r
    | none => 0

/-- One diagonal entry of `_uneven_transform_deriv_v`, uneven_logit.py:289-298. -/
def unevenDerivV (c v : ℝ) : ℝ :=
  1 / (1 + Real.exp (-1 * v)) + c / (1 + Real.exp (c * v))

/-- One entry of `_uneven_transform_deriv_shape`, uneven_logit.py:355-373. -/
def unevenDerivShape (c v : ℝ) : ℝ :=
  v / (1 + Real.exp (c * v)) * c

/-! ## Asymmetric -/

/-- `_convert_eta_to_c`, asym_logit.py:121-181 (1D case).  `exp_eta == 0` is replaced by
`min_comp_value`. -/
def convertEtaToC (ref : Fin (n + 1)) (eta : Fin n → ℝ) : Fin (n + 1) → ℝ :=
  let expEta : Fin n → ℝ := fun i =>
    if Real.exp (eta i) = 0 then minCompValue else Real.exp (eta i)
  let denom := (∑ i, expEta i) + 1
  Fin.insertNth (α := fun _ => ℝ) ref (1 / denom) fun i => expEta i / denom

/-- `_calc_deriv_c_with_respect_to_eta`, asym_logit.py:184-225: the columns other than the
reference position of `diag(c) - outer(c, c)`. -/
def derivCEta (ref : Fin (n + 1)) (c : Fin (n + 1) → ℝ) : Matrix (Fin (n + 1)) (Fin n) ℝ :=
  fun j i => (Matrix.diagonal c - Matrix.vecMulVec c c) j (ref.succAbove i)

/-- Data dependent part of `_asym_utility_transform`, asym_logit.py:292-305, for row shape `c` and
`numAlts` alternatives. -/
def asymH (numAlts : ℕ) (c v : ℝ) : ℝ :=
  let logShape := logGuard c
  let log1SubShape := logGuard ((1 - c) / ((numAlts : ℝ) - 1))
  let multiplier := if v ≥ 0 then logShape else log1SubShape
  logShape - v * multiplier

/-- `_asym_utility_transform`, asym_logit.py:228-347. The `none` shape case does not arise. -/
def asymTransform (shapeRef : Fin (n + 1)) (ref : Option (Fin (n + 1))) :
    Transform R (Fin (n + 1)) (Fin n) (Fin n) ι :=
  fun v _ rta shape ip r =>
    match shape with
    | some eta =>
        asymH (n + 1) ((rta *ᵥ convertEtaToC shapeRef eta) r) (v r)
          + (rta *ᵥ allIntercepts ref ip) r
    | none => 0

/-- One diagonal entry of `_asym_transform_deriv_v`, asym_logit.py:410-429. -/
def asymDerivV (numAlts : ℕ) (c v : ℝ) : ℝ :=
  -1 * (if v ≥ 0 then logGuard c else logGuard ((1 - c) / ((numAlts : ℝ) - 1)))

/-- One entry of `dh_dc_values` in `_asym_transform_deriv_shape`, asym_logit.py:509-526. -/
def asymDerivC (c v : ℝ) : ℝ :=
  let dLnShape := 1 / c
  let dLnShapeComp := -1 / (1 - c)
  dLnShape - v * (if v ≥ 0 then dLnShape else dLnShapeComp)

/-! ## The derivative matrices handed to the gradient

`diags(...)` with `data` replaced gives a diagonal matrix.  For the shape derivatives the code
overwrites the `data` array of a copy of the sparse matrix `rows_to_alts`, which stores one entry
per row; that is row scaling of `rows_to_alts` when each row has a single 1. -/

/-- Derivatives of the Clog-log estimator: no shape parameters (clog_log.py:288-296, 344-415). -/
def clogDerivs [DecidableEq R] (ref : Fin (n + 1)) (rta : Matrix R (Fin (n + 1)) ℝ) (v : R → ℝ) :
    Derivs R Empty (Fin n) where
  dhdc := fun _ e => e.elim
  dhdalpha := dhDAlpha ref rta
  dhdv := Matrix.diagonal fun r => clogDerivV (v r)

/-- Derivatives of the Scobit estimator (scobit.py:216-374, create_calc_* functions). -/
def scobitDerivs [DecidableEq R] (ref : Fin (n + 1)) (rta : Matrix R (Fin (n + 1)) ℝ)
    (s : Fin (n + 1) → ℝ) (v : R → ℝ) : Derivs R (Fin (n + 1)) (Fin n) where
  dhdc := scaleRows rta fun r => scobitDerivShape ((rta *ᵥ fun j => Real.exp (s j)) r) (v r)
  dhdalpha := dhDAlpha ref rta
  dhdv := Matrix.diagonal fun r => scobitDerivV ((rta *ᵥ fun j => Real.exp (s j)) r) (v r)

/-- Derivatives of the Uneven estimator (uneven_logit.py:241-374, create_calc_* functions). -/
def unevenDerivs [DecidableEq R] (ref : Fin (n + 1)) (rta : Matrix R (Fin (n + 1)) ℝ)
    (s : Fin (n + 1) → ℝ) (v : R → ℝ) : Derivs R (Fin (n + 1)) (Fin n) where
  dhdc := scaleRows rta fun r => unevenDerivShape ((rta *ᵥ fun j => Real.exp (s j)) r) (v r)
  dhdalpha := dhDAlpha ref rta
  dhdv := Matrix.diagonal fun r => unevenDerivV ((rta *ᵥ fun j => Real.exp (s j)) r) (v r)

/-- Derivatives of the Asymmetric estimator (asym_logit.py:350-586, create_calc_* functions). -/
def asymDerivs [DecidableEq R] (shapeRef ref : Fin (n + 1)) (rta : Matrix R (Fin (n + 1)) ℝ)
    (eta : Fin n → ℝ) (v : R → ℝ) : Derivs R (Fin n) (Fin n) where
  dhdc := (scaleRows rta fun r => asymDerivC ((rta *ᵥ convertEtaToC shapeRef eta) r) (v r))
    * derivCEta shapeRef (convertEtaToC shapeRef eta)
  dhdalpha := dhDAlpha ref rta
  dhdv := Matrix.diagonal fun r =>
    asymDerivV (n + 1) ((rta *ᵥ convertEtaToC shapeRef eta) r) (v r)

end

end Pylogit
