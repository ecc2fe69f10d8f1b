import Mathlib.Data.Nat.Notation
import Verif.Model.Basic

/-!
# Model of the parameter vector handling of the seven models

`split_param_vec`, `check_length_of_initial_values` and the assembly of the initial values in
`fit_mle`, of conditional_logit.py, asym_logit.py, clog_log.py, scobit.py, uneven_logit.py,
nested_logit.py and mixed_logit.py.

A one-dimensional parameter array is a list.  Shapes of the other arrays (number of alternatives,
design columns, nests, mixing variables) are natural numbers.  `num_alts - 1` is a truncated
subtraction; a table has at least one alternative.
-/

namespace Pylogit

variable {V : Type}

/-- The seven classes of `model_type_to_class`, pylogit.py:35-41. -/
inductive ModelType where
  | mnl
  | asym
  | cloglog
  | scobit
  | uneven
  | nested
  | mixed
  deriving DecidableEq, Repr

/-- The array shapes the parameter functions read: `rows_to_alts.shape[1]`, `design.shape[1]`,
`rows_to_nests.shape[1]` and the number of mixing variables. -/
structure Dims where
  numAlts : ℕ
  numIndex : ℕ
  numNests : ℕ
  numMixing : ℕ

/-- The slice `x[-1 * k:]`: `-0` is `0`, so `k = 0` keeps everything; a `k` beyond the length is
clamped. -/
def lastSlice (k : ℕ) (x : List V) : List V :=
  if k = 0 then x else x.drop (x.length - k)

/-- The slice `x[start: start + len]` with non-negative bounds. -/
def midSlice (start len : ℕ) (x : List V) : List V := (x.drop start).take len

/-- The tuple returned with `return_all_types=True`: nest, shape, intercept and index
parameters. -/
structure SplitParams (V : Type) where
  nests : Option (List V)
  shapes : Option (List V)
  intercepts : Option (List V)
  index : List V
  deriving DecidableEq

/-- The body shared by `split_param_vec` of asym_logit.py:99-118, scobit.py:89-108 and
uneven_logit.py:96-115, which differ in the number of shapes.  `remaining_idx > 0` is an integer
comparison; the truncated subtraction is positive in the same cases. -/
def splitShapes (numShapes numIndex : ℕ) (x : List V) : SplitParams V :=
  let shapes := x.take numShapes
  let betas := lastSlice numIndex x
  let remaining := x.length - (numShapes + numIndex)
  let intercepts := if remaining > 0 then some (midSlice numShapes remaining x) else none
  ⟨none, some shapes, intercepts, betas⟩

/-- `split_param_vec` of clog_log.py:97-113. -/
def splitClog (numIndex : ℕ) (x : List V) : SplitParams V :=
  let betas := lastSlice numIndex x
  let remaining := x.length - numIndex
  let intercepts := if remaining > 0 then some (x.take remaining) else none
  ⟨none, none, intercepts, betas⟩

/-- `split_param_vec` of nested_logit.py:98-106. -/
def splitNested (numNests : ℕ) (x : List V) : SplitParams V :=
  ⟨some (x.take numNests), none, none, x.drop numNests⟩

/-- `split_param_vec` of each model, with `return_all_types=True`
(conditional_logit.py:44-81, mixed_logit.py:51-79 return the whole vector as index
coefficients). -/
def splitParamVec (m : ModelType) (d : Dims) (x : List V) : SplitParams V :=
  match m with
  | .mnl => ⟨none, none, none, x⟩
  | .asym => splitShapes (d.numAlts - 1) d.numIndex x
  | .cloglog => splitClog d.numIndex x
  | .scobit => splitShapes d.numAlts d.numIndex x
  | .uneven => splitShapes d.numAlts d.numIndex x
  | .nested => splitNested d.numNests x
  | .mixed => ⟨none, none, none, x⟩

/-- `assumed_param_dimensions`: conditional_logit.py:208, asym_logit.py:785-791,
clog_log.py:492-498, scobit.py:601-607, uneven_logit.py:601-607, nested_logit.py:183-186,
mixed_logit.py:127 (`design_3d.shape[2]`: the design columns plus one column per mixing variable,
mixed_logit_calcs.py:147-177). -/
def assumedParamDimensions (m : ModelType) (d : Dims) (hasInterceptRef : Bool) : ℕ :=
  match m with
  | .mnl => d.numIndex
  | .asym =>
      if hasInterceptRef then d.numIndex + 2 * (d.numAlts - 1) else d.numIndex + d.numAlts - 1
  | .cloglog => if hasInterceptRef then d.numIndex + d.numAlts - 1 else d.numIndex
  | .scobit => if hasInterceptRef then d.numIndex + 2 * d.numAlts - 1 else d.numIndex + d.numAlts
  | .uneven => if hasInterceptRef then d.numIndex + 2 * d.numAlts - 1 else d.numIndex + d.numAlts
  | .nested => d.numIndex + d.numNests
  | .mixed => d.numIndex + d.numMixing

/-- `check_length_of_initial_values` (conditional_logit.py:191-218, asym_logit.py:765-801,
clog_log.py:473-508, scobit.py:583-617, uneven_logit.py:583-617, nested_logit.py:177-195,
mixed_logit.py:106-132 and 264-268). -/
def checkInitLength (m : ModelType) (d : Dims) (hasInterceptRef : Bool) (x : List V) :
    Except Err Unit :=
  if x.length ≠ assumedParamDimensions m d hasInterceptRef then .error .valueError else .ok ()

/-- The arguments of `fit_mle` from which the starting values are built.  For the keyword
arguments `none` means "not passed" and `some none` means "passed as `None`"; the two are only
told apart by the models that reject the keyword. -/
structure InitArgs (V : Type) where
  vals : Option (List V)
  shapes : Option (Option (List V))
  intercepts : Option (Option (List V))
  coefs : Option (Option (List V))

/-- `fit_mle` of the asymmetric, scobit and uneven models up to the estimation object,
asym_logit.py:1013-1067, scobit.py:821-874, uneven_logit.py:822-875, for `numShapes` shape
parameters (the number of alternatives, minus one for the asymmetric model). -/
def initShapesModel (numShapes : ℕ) (d : Dims) (a : InitArgs V) : Except Err (List V) :=
  match a.vals with
  | some x => .ok x
  | none =>
    match a.shapes.join, a.coefs.join with
    | some s, some b =>
        if s.length ≠ numShapes then .error .valueError
        else if b.length ≠ d.numIndex then .error .valueError
        else
          match a.intercepts.join with
          | some c =>
              if c.length ≠ d.numAlts - 1 then .error .valueError else .ok (s ++ c ++ b)
          | none => .ok (s ++ b)
    | _, _ => .error .valueError

/-- `fit_mle` of the clog-log model up to the estimation object, clog_log.py:685-732. -/
def initClog (d : Dims) (a : InitArgs V) : Except Err (List V) :=
  if a.shapes.isSome then .error .valueError
  else
    match a.vals with
    | some x => .ok x
    | none =>
      match a.coefs.join with
      | none => .error .valueError
      | some b =>
          if b.length ≠ d.numIndex then .error .valueError
          else
            match a.intercepts.join with
            | some c => if c.length ≠ d.numAlts - 1 then .error .valueError else .ok (c ++ b)
            | none => .ok b

/-- `fit_mle` of the MNL, nested and mixed models up to the estimation object,
conditional_logit.py:359-380, nested_logit.py:494-526, mixed_logit.py:556-591: keyword groups are
rejected, and `init_vals.shape` fails on `None`. -/
def initPlain (a : InitArgs V) : Except Err (List V) :=
  if a.shapes.isSome ∨ a.intercepts.isSome ∨ a.coefs.isSome then .error .valueError
  else
    match a.vals with
    | some x => .ok x
    | none => .error .attributeError

/-- The starting values assembled by `fit_mle` of each model, before the length check. -/
def rawInitVals (m : ModelType) (d : Dims) (a : InitArgs V) : Except Err (List V) :=
  match m with
  | .mnl => initPlain a
  | .asym => initShapesModel (d.numAlts - 1) d a
  | .cloglog => initClog d a
  | .scobit => initShapesModel d.numAlts d a
  | .uneven => initShapesModel d.numAlts d a
  | .nested => initPlain a
  | .mixed => initPlain a

/-- The starting values `fit_mle` hands to `estimate`, after `check_length_of_initial_values`
(the calls at conditional_logit.py:391, asym_logit.py:1081, clog_log.py:746, scobit.py:888,
uneven_logit.py:889, nested_logit.py:537, mixed_logit.py:600). -/
def fitInitVals (m : ModelType) (d : Dims) (hasInterceptRef : Bool) (a : InitArgs V) :
    Except Err (List V) := do
  let x ← rawInitVals m d a
  checkInitLength m d hasInterceptRef x
  return x

end Pylogit
