import Mathlib.Analysis.SpecialFunctions.Log.Basic
import Mathlib.Data.Matrix.Mul
import Mathlib.Data.Matrix.ColumnRowPartitioned
import Mathlib.LinearAlgebra.Matrix.NonsingularInverse
import Verif.Model.Basic

/-!
# Model of `src/pylogit/choice_calcs.py`

Floats are reals.  Index types: `R` long-format rows, `O` observations,
`A` alternatives, `K` design columns, `S` shape parameters, `I` intercept
parameters, `D` columns of a two-dimensional utility array.
-/

open Matrix

namespace Pylogit

noncomputable section

variable {R O A K S I D ι : Type}

/-- `min_exponent_val`, choice_calcs.py:26. -/
def minExponentVal : ℝ := -700
/-- `max_exponent_val`, choice_calcs.py:27. -/
def maxExponentVal : ℝ := 700
/-- `max_comp_value`, choice_calcs.py:29. -/
def maxCompValue : ℝ := 10 ^ (300 : ℕ)
/-- `min_comp_value`, choice_calcs.py:30. -/
def minCompValue : ℝ := (10 ^ (300 : ℕ))⁻¹

/-- The two masked assignments of choice_calcs.py:144-148, for one entry.
Both masks are computed before either assignment. -/
def clipExponent (h : ℝ) : ℝ :=
  if h > maxExponentVal then maxExponentVal
  else if h < minExponentVal then minExponentVal
  else h

/-- `long_exponentials`, choice_calcs.py:144-151, for one column. -/
def longExponentials (h : R → ℝ) : R → ℝ := fun r => Real.exp (clipExponent (h r))

/-- `individual_denominators`, choice_calcs.py:156-157, for one column. -/
def individualDenominators [Fintype R] (rowsToObs : Matrix R O ℝ) (h : R → ℝ) : O → ℝ :=
  rowsToObsᵀ *ᵥ longExponentials h

/-- `long_probs` before the underflow guard, choice_calcs.py:158-162, for one column. -/
def rawLongProbs [Fintype R] [Fintype O] (rowsToObs : Matrix R O ℝ) (h : R → ℝ) : R → ℝ :=
  fun r => longExponentials h r / (rowsToObs *ᵥ individualDenominators rowsToObs h) r

/-- `long_probs`, choice_calcs.py:144-165, for one column of transformed
utilities, with the guard `long_probs[long_probs == 0] = min_comp_value`. -/
def longProbs [Fintype R] [Fintype O] (rowsToObs : Matrix R O ℝ) (h : R → ℝ) : R → ℝ :=
  fun r =>
    let p := rawLongProbs rowsToObs h r
    if p = 0 then minCompValue else p

/-- `chosen_probs`, choice_calcs.py:171-177, for one column (no zero guard in the code). -/
def chosenProbs [Fintype R] (rowsToObs chosenRowToObs : Matrix R O ℝ) (h : R → ℝ) : O → ℝ :=
  fun o => (chosenRowToObsᵀ *ᵥ longExponentials h) o / individualDenominators rowsToObs h o

/-- A utility transformation: the callable `utility_transform` of
choice_calcs.py:137-141 with arguments systematic utilities, `alt_IDs`,
`rows_to_alts`, shape parameters and intercept parameters. -/
abbrev Transform (R A S I ι : Type) :=
  (R → ℝ) → (R → ι) → Matrix R A ℝ → Option (S → ℝ) → Option (I → ℝ) → R → ℝ

/-- The coefficient argument `beta`: a 1D array or a 2D array with one column per `D`. -/
inductive Coefs (K D : Type) where
  | vec (b : K → ℝ)
  | mat (b : Matrix K D ℝ)

/-- The `design` argument: 2D, or 3D with axes (rows, draws, columns). -/
inductive DesignArg (R K D : Type) where
  | two (x : Matrix R K ℝ)
  | three (x : R → D → K → ℝ)

/-- What `calc_probabilities` returns. Two-dimensional results have one column per
`D`; the one-dimensional case is `D = Unit`. -/
inductive ProbResult (R O D : Type) where
  | both (chosen : O → D → ℝ) (long : R → D → ℝ)
  | long (long : R → D → ℝ)
  | chosen (chosen : O → D → ℝ)

/-- `sys_utilities = design.dot(beta)`, choice_calcs.py:133.  The combination of a
3D design and 2D coefficients is rejected at lines 124-127 before this is reached. -/
def sysUtilities [Fintype K] : DesignArg R K D → Coefs K D → Except Err (R → D → ℝ)
  | .two x, .vec b => .ok fun r _ => (x *ᵥ b) r
  | .two x, .mat b => .ok fun r d => (x * b) r d
  | .three x, .vec b => .ok fun r d => ∑ k, x r d k * b k
  | .three _, .mat _ => .error .valueError

/-- `calc_probabilities`, choice_calcs.py:36-189.  All array operations of the body act
column by column, so the model applies the one-column definitions to each column. -/
def calcProbabilities [Fintype R] [Fintype O] [Fintype K]
    (beta : Coefs K D) (design : DesignArg R K D) (altIDs : R → ι)
    (rowsToObs : Matrix R O ℝ) (rowsToAlts : Matrix R A ℝ)
    (T : Transform R A S I ι)
    (intercept : Option (I → ℝ)) (shape : Option (S → ℝ))
    (chosenRowToObs : Option (Matrix R O ℝ)) (returnLongProbs : Bool) :
    Except Err (ProbResult R O D) :=
  match beta, design with
  | .mat _, .three _ => .error .valueError
  | _, _ =>
    if chosenRowToObs.isNone && !returnLongProbs then .error .valueError
    else do
      let v ← sysUtilities design beta
      let h : D → R → ℝ := fun d => T (fun r => v r d) altIDs rowsToAlts shape intercept
      let lp : R → D → ℝ := fun r d => longProbs rowsToObs (h d) r
      match chosenRowToObs, returnLongProbs with
      | some c, true => .ok (.both (fun o d => chosenProbs rowsToObs c (h d) o) lp)
      | none, _ => .ok (.long lp)
      | some c, false => .ok (.chosen fun o d => chosenProbs rowsToObs c (h d) o)

/-- The long probabilities obtained by the calls
`calc_probabilities(beta, design, ..., return_long_probs=True)` with a 1D `beta` and a
2D `design` inside `calc_log_likelihood`, `calc_gradient`, `calc_hessian` and
`calc_fisher_info_matrix` (choice_calcs.py:261-269, 392-400, 654-662, 917-925).  That this is
what `calcProbabilities` returns for those arguments is `calcProbabilities_long_1d`. -/
def modelProbs [Fintype R] [Fintype O] [Fintype K]
    (beta : K → ℝ) (design : Matrix R K ℝ) (altIDs : R → ι)
    (rowsToObs : Matrix R O ℝ) (rowsToAlts : Matrix R A ℝ) (T : Transform R A S I ι)
    (intercept : Option (I → ℝ)) (shape : Option (S → ℝ)) : R → ℝ :=
  longProbs rowsToObs (T (design *ᵥ beta) altIDs rowsToAlts shape intercept)

/-- `weights = 1` / `np.ones(...)` when `weights is None`
(choice_calcs.py:272-273, 403-404, 524-525, 665-666, 928-929). -/
def defaultWeights (weights : Option (R → ℝ)) : R → ℝ :=
  weights.getD fun _ => 1

/-- Sum of squares of an optional parameter group; `None` groups are skipped
(choice_calcs.py:281-287). -/
def sumSqOpt [Fintype S] : Option (S → ℝ) → ℝ
  | none => 0
  | some p => ∑ s, p s ^ 2

/-- `calc_log_likelihood`, choice_calcs.py:192-287. -/
def calcLogLikelihood [Fintype R] [Fintype O] [Fintype K] [Fintype S] [Fintype I]
    (beta : K → ℝ) (design : Matrix R K ℝ) (altIDs : R → ι)
    (rowsToObs : Matrix R O ℝ) (rowsToAlts : Matrix R A ℝ) (choice : R → ℝ)
    (T : Transform R A S I ι)
    (intercept : Option (I → ℝ)) (shape : Option (S → ℝ))
    (ridge : Option ℝ) (weights : Option (R → ℝ)) : ℝ :=
  let p := modelProbs beta design altIDs rowsToObs rowsToAlts T intercept shape
  let w := defaultWeights weights
  let ll := ∑ r, choice r * (w r * Real.log (p r))
  match ridge with
  | none => ll
  | some c => ll - c * (sumSqOpt shape + sumSqOpt intercept + ∑ k, beta k ^ 2)

/-- The derivative callables passed to the gradient and Hessian
(`transform_first_deriv_c`, `transform_first_deriv_v`, `transform_deriv_alpha`), already
applied to `sys_utilities, alt_IDs, rows_to_alts` and the respective parameters
(choice_calcs.py:411-420, 673-682, 937-946). -/
structure Derivs (R S I : Type) where
  dhdc : Matrix R S ℝ
  dhdalpha : Matrix R I ℝ
  dhdv : Matrix R R ℝ

/-- `d_ll_dh` of `calc_gradient`, choice_calcs.py:428. -/
def dLLdh (weights : Option (R → ℝ)) (choice p : R → ℝ) : R → ℝ :=
  fun r => defaultWeights weights r * (choice r - p r)

/-- `gradient -= 2 * ridge * params`, choice_calcs.py:483-484. -/
def ridgeGrad {P : Type} (ridge : Option ℝ) (params g : P → ℝ) : P → ℝ :=
  match ridge with
  | none => g
  | some c => fun i => g i - 2 * c * params i

/-- `calc_gradient`, branch with shape and intercept parameters, choice_calcs.py:436-451.
The code multiplies `d_ll_dh` by `hstack((dh_dc, dh_d_alpha))`; a product with a horizontally
stacked matrix is the concatenation of the two products, which is how it is written here. -/
def gradientBoth [Fintype R] [Fintype K] (d : Derivs R S I) (design : Matrix R K ℝ)
    (choice p : R → ℝ) (weights : Option (R → ℝ)) (ridge : Option ℝ)
    (shape : S → ℝ) (intercept : I → ℝ) (beta : K → ℝ) : S ⊕ (I ⊕ K) → ℝ :=
  ridgeGrad ridge (Sum.elim shape (Sum.elim intercept beta))
    (Sum.elim (dLLdh weights choice p ᵥ* d.dhdc)
      (Sum.elim (dLLdh weights choice p ᵥ* d.dhdalpha)
        (dLLdh weights choice p ᵥ* (d.dhdv * design))))

/-- `calc_gradient`, branch with shape but no intercept parameters, choice_calcs.py:453-464. -/
def gradientShape [Fintype R] [Fintype K] (d : Derivs R S I) (design : Matrix R K ℝ)
    (choice p : R → ℝ) (weights : Option (R → ℝ)) (ridge : Option ℝ)
    (shape : S → ℝ) (beta : K → ℝ) : S ⊕ K → ℝ :=
  ridgeGrad ridge (Sum.elim shape beta)
    (Sum.elim (dLLdh weights choice p ᵥ* d.dhdc)
      (dLLdh weights choice p ᵥ* (d.dhdv * design)))

/-- `calc_gradient`, branch with intercept but no shape parameters, choice_calcs.py:466-477. -/
def gradientIcpt [Fintype R] [Fintype K] (d : Derivs R S I) (design : Matrix R K ℝ)
    (choice p : R → ℝ) (weights : Option (R → ℝ)) (ridge : Option ℝ)
    (intercept : I → ℝ) (beta : K → ℝ) : I ⊕ K → ℝ :=
  ridgeGrad ridge (Sum.elim intercept beta)
    (Sum.elim (dLLdh weights choice p ᵥ* d.dhdalpha)
      (dLLdh weights choice p ᵥ* (d.dhdv * design)))

/-- `calc_gradient`, branch with neither, choice_calcs.py:479-481. -/
def gradientNone [Fintype R] [Fintype K] (d : Derivs R S I) (design : Matrix R K ℝ)
    (choice p : R → ℝ) (weights : Option (R → ℝ)) (ridge : Option ℝ)
    (beta : K → ℝ) : K → ℝ :=
  ridgeGrad ridge beta (dLLdh weights choice p ᵥ* (d.dhdv * design))

/-- `rows_to_obs.multiply(x[:, None])`, choice_calcs.py:542-543. -/
def scaleRows (M : Matrix R O ℝ) (x : R → ℝ) : Matrix R O ℝ := fun r o => M r o * x r

/-- `quadratic_prod_wrt_dp_ds`, choice_calcs.py:489-558: the product
`left · diag(w p) · right - (left · (rows_to_obs * w p)) · ((rows_to_obs * p)ᵀ · right)`.
`left` is passed transposed by all callers. -/
def quadraticProd [Fintype R] [Fintype O] {P Q : Type} (left : Matrix P R ℝ) (right : Matrix R Q ℝ)
    (p : R → ℝ) (rowsToObs : Matrix R O ℝ) (weights : Option (R → ℝ)) : Matrix P Q ℝ :=
  let wp : R → ℝ := fun r => defaultWeights weights r * p r
  let leftTimesWtProbs : Matrix P R ℝ := Matrix.of fun i r => left i r * wp r
  leftTimesWtProbs * right
    - (left * scaleRows rowsToObs wp) * ((scaleRows rowsToObs p)ᵀ * right)

/-- `hess -= 2 * ridge * np.identity(...)`, choice_calcs.py:819-820 (also 995-1000). -/
def ridgeMat {P : Type} [DecidableEq P] (ridge : Option ℝ) (H : Matrix P P ℝ) : Matrix P P ℝ :=
  match ridge with
  | none => H
  | some c => H - (2 * c) • (1 : Matrix P P ℝ)

/-- `d2_ll_dx_dy = -1 * quadratic_prod_wrt_dp_ds(dh_dx.T, dh_dy, ...)`,
choice_calcs.py:696-697, 709-710, 719-720, 728-729, 738-739, 748-749, 772-773, 782-783,
799-800, 809-810. -/
def negQuad [Fintype R] [Fintype O] {P Q : Type} (dhdx : Matrix R P ℝ) (dhdy : Matrix R Q ℝ)
    (p : R → ℝ) (rowsToObs : Matrix R O ℝ) (weights : Option (R → ℝ)) : Matrix P Q ℝ :=
  -1 • quadraticProd dhdxᵀ dhdy p rowsToObs weights

/-- `calc_hessian`, branch with shape and intercept parameters, choice_calcs.py:702-763. -/
def hessianBoth [Fintype R] [Fintype O] [Fintype K] [DecidableEq S] [DecidableEq I] [DecidableEq K]
    (d : Derivs R S I) (design : Matrix R K ℝ) (p : R → ℝ) (rowsToObs : Matrix R O ℝ)
    (ridge : Option ℝ) (weights : Option (R → ℝ)) :
    Matrix (S ⊕ (I ⊕ K)) (S ⊕ (I ⊕ K)) ℝ :=
  let dhdb := d.dhdv * design
  let d2b2 := negQuad dhdb dhdb p rowsToObs weights
  let d2c2 := negQuad d.dhdc d.dhdc p rowsToObs weights
  let d2a2 := negQuad d.dhdalpha d.dhdalpha p rowsToObs weights
  let d2ca := negQuad d.dhdalpha d.dhdc p rowsToObs weights
  let d2cb := negQuad dhdb d.dhdc p rowsToObs weights
  let d2ab := negQuad dhdb d.dhdalpha p rowsToObs weights
  let topRow := Matrix.fromCols d2c2 (Matrix.fromCols d2caᵀ d2cbᵀ)
  let middleRow := Matrix.fromCols d2ca (Matrix.fromCols d2a2 d2abᵀ)
  let lastRow := Matrix.fromCols d2cb (Matrix.fromCols d2ab d2b2)
  ridgeMat ridge (Matrix.fromRows topRow (Matrix.fromRows middleRow lastRow))

/-- `calc_hessian`, branch with shape but no intercept parameters, choice_calcs.py:765-789. -/
def hessianShape [Fintype R] [Fintype O] [Fintype K] [DecidableEq S] [DecidableEq K]
    (d : Derivs R S I) (design : Matrix R K ℝ) (p : R → ℝ) (rowsToObs : Matrix R O ℝ)
    (ridge : Option ℝ) (weights : Option (R → ℝ)) : Matrix (S ⊕ K) (S ⊕ K) ℝ :=
  let dhdb := d.dhdv * design
  let d2b2 := negQuad dhdb dhdb p rowsToObs weights
  let d2c2 := negQuad d.dhdc d.dhdc p rowsToObs weights
  let d2cb := negQuad dhdb d.dhdc p rowsToObs weights
  ridgeMat ridge (Matrix.fromRows (Matrix.fromCols d2c2 d2cbᵀ) (Matrix.fromCols d2cb d2b2))

/-- `calc_hessian`, branch with intercept but no shape parameters, choice_calcs.py:791-815. -/
def hessianIcpt [Fintype R] [Fintype O] [Fintype K] [DecidableEq I] [DecidableEq K]
    (d : Derivs R S I) (design : Matrix R K ℝ) (p : R → ℝ) (rowsToObs : Matrix R O ℝ)
    (ridge : Option ℝ) (weights : Option (R → ℝ)) : Matrix (I ⊕ K) (I ⊕ K) ℝ :=
  let dhdb := d.dhdv * design
  let d2b2 := negQuad dhdb dhdb p rowsToObs weights
  let d2a2 := negQuad d.dhdalpha d.dhdalpha p rowsToObs weights
  let d2ab := negQuad dhdb d.dhdalpha p rowsToObs weights
  ridgeMat ridge (Matrix.fromRows (Matrix.fromCols d2a2 d2abᵀ) (Matrix.fromCols d2ab d2b2))

/-- `calc_hessian`, branch with neither, choice_calcs.py:816-817. -/
def hessianNone [Fintype R] [Fintype O] [Fintype K] [DecidableEq K]
    (d : Derivs R S I) (design : Matrix R K ℝ) (p : R → ℝ) (rowsToObs : Matrix R O ℝ)
    (ridge : Option ℝ) (weights : Option (R → ℝ)) : Matrix K K ℝ :=
  let dhdb := d.dhdv * design
  ridgeMat ridge (negQuad dhdb dhdb p rowsToObs weights)

/-- `weights_per_obs = np.max(rows_to_obs.toarray() * weights[:, None], axis=0)`,
choice_calcs.py:930-931.  `np.max` over an empty axis raises; the model asks for `Nonempty R`. -/
def weightsPerObs [Fintype R] [Nonempty R] (rowsToObs : Matrix R O ℝ) (w : R → ℝ) : O → ℝ :=
  fun o => Finset.univ.sup' Finset.univ_nonempty fun r => rowsToObs r o * w r

/-- `calc_fisher_info_matrix` from the stacked derivative matrix `J` on, choice_calcs.py:927-1002.
The four branches (lines 958-981) only differ in which blocks are concatenated to form `J`. -/
def fisherCore [Fintype R] [Nonempty R] [Fintype O] {P : Type} [DecidableEq P]
    (J : Matrix R P ℝ) (choice p : R → ℝ) (rowsToObs : Matrix R O ℝ)
    (ridge : Option ℝ) (weights : Option (R → ℝ)) : Matrix P P ℝ :=
  let w := defaultWeights weights
  let wObs := weightsPerObs rowsToObs w
  let gradVec : Matrix R P ℝ := Matrix.of fun r i => (choice r - p r) * J r i
  let gradObs : Matrix O P ℝ := rowsToObsᵀ * gradVec
  let scaled : Matrix O P ℝ := Matrix.of fun o i => wObs o * gradObs o i
  ridgeMat ridge (gradObsᵀ * scaled)

/-- `calc_fisher_info_matrix`, branch with shape and intercept parameters, choice_calcs.py:958-967. -/
def fisherBoth [Fintype R] [Nonempty R] [Fintype O] [Fintype K]
    [DecidableEq S] [DecidableEq I] [DecidableEq K]
    (d : Derivs R S I) (design : Matrix R K ℝ) (choice p : R → ℝ) (rowsToObs : Matrix R O ℝ)
    (ridge : Option ℝ) (weights : Option (R → ℝ)) : Matrix (S ⊕ (I ⊕ K)) (S ⊕ (I ⊕ K)) ℝ :=
  fisherCore (Matrix.fromCols d.dhdc (Matrix.fromCols d.dhdalpha (d.dhdv * design)))
    choice p rowsToObs ridge weights

/-- `calc_fisher_info_matrix`, branch with shape parameters only, choice_calcs.py:968-974. -/
def fisherShape [Fintype R] [Nonempty R] [Fintype O] [Fintype K] [DecidableEq S] [DecidableEq K]
    (d : Derivs R S I) (design : Matrix R K ℝ) (choice p : R → ℝ) (rowsToObs : Matrix R O ℝ)
    (ridge : Option ℝ) (weights : Option (R → ℝ)) : Matrix (S ⊕ K) (S ⊕ K) ℝ :=
  fisherCore (Matrix.fromCols d.dhdc (d.dhdv * design)) choice p rowsToObs ridge weights

/-- `calc_fisher_info_matrix`, branch with intercept parameters only, choice_calcs.py:975-979. -/
def fisherIcpt [Fintype R] [Nonempty R] [Fintype O] [Fintype K] [DecidableEq I] [DecidableEq K]
    (d : Derivs R S I) (design : Matrix R K ℝ) (choice p : R → ℝ) (rowsToObs : Matrix R O ℝ)
    (ridge : Option ℝ) (weights : Option (R → ℝ)) : Matrix (I ⊕ K) (I ⊕ K) ℝ :=
  fisherCore (Matrix.fromCols d.dhdalpha (d.dhdv * design)) choice p rowsToObs ridge weights

/-- `calc_fisher_info_matrix`, branch with neither, choice_calcs.py:980-981. -/
def fisherNone [Fintype R] [Nonempty R] [Fintype O] [Fintype K] [DecidableEq K]
    (d : Derivs R S I) (design : Matrix R K ℝ) (choice p : R → ℝ) (rowsToObs : Matrix R O ℝ)
    (ridge : Option ℝ) (weights : Option (R → ℝ)) : Matrix K K ℝ :=
  fisherCore (d.dhdv * design) choice p rowsToObs ridge weights

/-- `calc_asymptotic_covariance`, choice_calcs.py:1005-1029.  `scipy.linalg.inv` raises for
singular input; theorems assume `IsUnit H.det`. -/
def asymptoticCovariance {P : Type} [Fintype P] [DecidableEq P] (H F : Matrix P P ℝ) :
    Matrix P P ℝ :=
  H⁻¹ * (F * H⁻¹)

end

end Pylogit
