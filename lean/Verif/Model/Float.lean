import Mathlib.Analysis.SpecialFunctions.Exp
import Verif.Model.ChoiceCalcs

/-!
# Model of the computations on floating point numbers

The other modules compute with real numbers, where nothing overflows, underflows, is rounded or fails to be
a number.  Here the probabilities and utility transformations are modelled on floating point numbers, for
every number format and every implementation of the elementary functions that satisfy a few laws of IEEE
754 arithmetic (`FloatFormat`, `MathLib`).  The guards of the code against infinities, underflow and
overflow are all kept.  Simplifications: the two zeros of IEEE 754 are one (the code never divides by a
zero it has not guarded, except in the cases shown), and sums are taken in row order.
-/

namespace Pylogit

noncomputable section

/-- A floating point format: rounding of reals (as if exponents were unbounded above) and the largest finite
number.  IEEE 754 binary64 with rounding to nearest is one, with `big = 2^1024 - 2^971`. -/
structure FloatFormat where
  rnd : ℝ → ℝ
  big : ℝ
  mono : Monotone rnd
  idem : ∀ x, rnd (rnd x) = rnd x
  neg : ∀ x, rnd (-x) = -rnd x
  /-- integers up to 2^53 are exact -/
  int : ∀ k : ℤ, |k| ≤ 2 ^ 53 → rnd k = k
  /-- `1e300` does not overflow -/
  maxComp_le : rnd maxCompValue ≤ big
  /-- `1e-300` does not underflow -/
  minComp_pos : 0 < rnd minCompValue
  /-- `big` is itself a number of the format -/
  rnd_big : rnd big = big
  /-- adding one to it is absorbed by rounding -/
  big_add_one : rnd (big + 1) ≤ big

namespace FloatFormat

/-- The finite numbers of a format. -/
def Num (A : FloatFormat) : Type := {x : ℝ // A.rnd x = x ∧ |x| ≤ A.big}

/-- The accuracy of rounding to nearest: `u` bounds relative errors (`2^-53` in binary64) and `η` errors of
underflow (`2^-1075`).  Sums do not underflow. -/
structure Accurate (A : FloatFormat) (u η : ℝ) : Prop where
  unit_nonneg : 0 ≤ u
  unit_lt : u < 1
  eta_nonneg : 0 ≤ η
  rnd_error : ∀ x, 0 ≤ x → |A.rnd x - x| ≤ u * x + η
  add_error : ∀ a b : A.Num, 0 ≤ a.1 → 0 ≤ b.1 → |A.rnd (a.1 + b.1) - (a.1 + b.1)| ≤ u * (a.1 + b.1)

end FloatFormat

/-- A floating point value: a finite number, an infinity or NaN. -/
inductive Fl (A : FloatFormat) where
  | fin (x : A.Num)
  | pinf
  | ninf
  | nan

variable {A : FloatFormat}

open Classical in
/-- The float nearest to a real number in the rounding of the format; infinite on overflow. -/
def Fl.round (A : FloatFormat) (r : ℝ) : Fl A :=
  if h₁ : A.big < A.rnd r then .pinf
  else if h₂ : A.rnd r < -A.big then .ninf
  else .fin ⟨A.rnd r, A.idem r, abs_le.2 ⟨not_lt.1 h₂, not_lt.1 h₁⟩⟩

/-- `-x`. -/
def Fl.neg : Fl A → Fl A
  | .fin x => .round A (-x.1)
  | .pinf => .ninf
  | .ninf => .pinf
  | .nan => .nan

/-- `x + y`. -/
def Fl.add : Fl A → Fl A → Fl A
  | .fin x, .fin y => .round A (x.1 + y.1)
  | .nan, _ => .nan
  | _, .nan => .nan
  | .pinf, .ninf => .nan
  | .ninf, .pinf => .nan
  | .pinf, _ => .pinf
  | _, .pinf => .pinf
  | .ninf, _ => .ninf
  | _, .ninf => .ninf

/-- `x - y`. -/
def Fl.sub (x y : Fl A) : Fl A := x.add y.neg

open Classical in
/-- The infinity with the sign of a number times an infinity; NaN for zero. -/
def Fl.scaleInf (x : ℝ) : Fl A := if x = 0 then .nan else if 0 < x then .pinf else .ninf

/-- `x * y`. -/
def Fl.mul : Fl A → Fl A → Fl A
  | .fin x, .fin y => .round A (x.1 * y.1)
  | .nan, _ => .nan
  | _, .nan => .nan
  | .fin x, .pinf => .scaleInf x.1
  | .fin x, .ninf => .scaleInf (-x.1)
  | .pinf, .fin x => .scaleInf x.1
  | .ninf, .fin x => .scaleInf (-x.1)
  | .pinf, .pinf => .pinf
  | .ninf, .ninf => .pinf
  | .pinf, .ninf => .ninf
  | .ninf, .pinf => .ninf

open Classical in
/-- `x / y`, a zero divisor counting as positive zero. -/
def Fl.div : Fl A → Fl A → Fl A
  | .fin x, .fin y => if y.1 = 0 then .scaleInf x.1 else .round A (x.1 / y.1)
  | .nan, _ => .nan
  | _, .nan => .nan
  | .fin _, _ => .round A 0
  | .pinf, .fin y => if y.1 < 0 then .ninf else .pinf
  | .ninf, .fin y => if y.1 < 0 then .pinf else .ninf
  | _, _ => .nan

/-- `x < y`; false if either is NaN. -/
def Fl.lt : Fl A → Fl A → Prop
  | .fin x, .fin y => x.1 < y.1
  | .fin _, .pinf => True
  | .ninf, .fin _ => True
  | .ninf, .pinf => True
  | _, _ => False

/-- `x >= y`; false if either is NaN. -/
def Fl.ge (x y : Fl A) : Prop := x ≠ .nan ∧ y ≠ .nan ∧ ¬ x.lt y

/-- An implementation of the elementary functions on the finite numbers of a format.  The laws are far weaker
than what C libraries and NumPy guarantee: no accuracy and no monotonicity is assumed. -/
structure MathLib (A : FloatFormat) where
  exp : A.Num → Fl A
  log : A.Num → A.Num
  log1p : A.Num → A.Num
  pow : A.Num → A.Num → Fl A
  /-- exponentials are non-negative, and may underflow to zero or overflow -/
  exp_nonneg : ∀ x, exp x = .pinf ∨ ∃ y, exp x = .fin y ∧ 0 ≤ y.1
  /-- between -700 and 700 they do neither -/
  exp_mid : ∀ x, |x.1| ≤ 700 → ∃ y, exp x = .fin y ∧ 0 < y.1
  /-- exponentials of non-negative numbers are at least one -/
  exp_one_le : ∀ x, 0 ≤ x.1 → exp x = .pinf ∨ ∃ y, exp x = .fin y ∧ 1 ≤ y.1
  /-- and those of non-positive numbers at most one -/
  exp_le_one : ∀ x, x.1 ≤ 0 → ∃ y, exp x = .fin y ∧ 0 ≤ y.1 ∧ y.1 ≤ 1
  log_nonpos : ∀ x, 0 < x.1 → x.1 ≤ 1 → (log x).1 ≤ 0
  /-- the logarithm of the smallest binary64 number is -744.4... -/
  log_ge : ∀ x, 0 < x.1 → -1000 ≤ (log x).1
  log1p_nonneg : ∀ x, 0 ≤ x.1 → 0 ≤ (log1p x).1
  /-- powers of numbers from one up to non-negative exponents are at least one -/
  one_le_pow : ∀ x s, 1 ≤ x.1 → 0 ≤ s.1 → pow x s = .pinf ∨ ∃ y, pow x s = .fin y ∧ 1 ≤ y.1

/-- `np.exp`. -/
def Fl.exp (L : MathLib A) : Fl A → Fl A
  | .fin x => L.exp x
  | .pinf => .pinf
  | .ninf => .round A 0
  | .nan => .nan

open Classical in
/-- `np.log`. -/
def Fl.log (L : MathLib A) : Fl A → Fl A
  | .fin x => if x.1 = 0 then .ninf else if x.1 < 0 then .nan else .fin (L.log x)
  | .pinf => .pinf
  | .ninf => .nan
  | .nan => .nan

open Classical in
/-- `np.log1p`. -/
def Fl.log1p (L : MathLib A) : Fl A → Fl A
  | .fin x => if x.1 = -1 then .ninf else if x.1 < -1 then .nan else .fin (L.log1p x)
  | .pinf => .pinf
  | .ninf => .nan
  | .nan => .nan

/-- `np.power`, which the code only applies to finite numbers (every other case is NaN here, so a theorem that
excludes NaN shows that it does not arise). -/
def Fl.pow (L : MathLib A) : Fl A → Fl A → Fl A
  | .fin x, .fin s => L.pow x s
  | _, _ => .nan

/-- `max_comp_value`, choice_calcs.py:29 and the same constant in asym_logit.py, clog_log.py, scobit.py and
uneven_logit.py. -/
def Fl.maxComp (A : FloatFormat) : Fl A := .round A maxCompValue

/-- `min_comp_value`, choice_calcs.py:30. -/
def Fl.minComp (A : FloatFormat) : Fl A := .round A minCompValue

/-- `x[np.isposinf(x)] = max_comp_value`. -/
def Fl.guardPos : Fl A → Fl A
  | .pinf => .maxComp A
  | x => x

/-- `x[np.isneginf(x)] = -1 * max_comp_value`. -/
def Fl.guardNeg : Fl A → Fl A
  | .ninf => (Fl.maxComp A).neg
  | x => x

open Classical in
/-- `x[x == 0] = min_comp_value`. -/
def Fl.guardZero : Fl A → Fl A
  | .fin x => if x.1 = 0 then .minComp A else .fin x
  | x => x

/-- `x[np.isinf(x)] = y[np.isinf(x)]`. -/
def Fl.ifInf : Fl A → Fl A → Fl A
  | .pinf, y => y
  | .ninf, y => y
  | x, _ => x

/-- Adding up numbers one after the other from zero, as sparse matrix products and `sum` do. -/
def Fl.sum (l : List (Fl A)) : Fl A := l.foldl Fl.add (.round A 0)

/-- The entry of a product of a mapping matrix (a row with a single 1) and a vector, at a row whose 1 is at the
entry `x`: sparse products only visit stored entries. -/
def Fl.pick (x : Fl A) : Fl A := .sum [(Fl.round A 1).mul x]

open Classical in
/-- The clipping of transformed utilities, choice_calcs.py:144-148. -/
def Fl.clip (x : Fl A) : Fl A :=
  let y := if x.lt (.round A (-700)) then Fl.round A (-700) else x
  if (Fl.round A 700).lt x then Fl.round A 700 else y

section Probabilities

variable {n : ℕ} {O : Type} [DecidableEq O]

/-- The rows of an observation, in order. -/
def rowsOfObs (obs : Fin n → O) (o : O) : List (Fin n) := (List.finRange n).filter fun r => obs r = o

/-- `individual_denominators`, choice_calcs.py:151-157, for the transformed utilities `t`: the sum over the rows
of an observation of the exponentials of the clipped utilities. -/
def floatDenominator (L : MathLib A) (obs : Fin n → O) (t : Fin n → Fl A) (o : O) : Fl A :=
  .sum ((rowsOfObs obs o).map fun r => (Fl.round A 1).mul ((t r).clip.exp L))

/-- `long_probs` of `calc_probabilities`, choice_calcs.py:143-165, from the transformed utilities. -/
def floatLongProbs (L : MathLib A) (obs : Fin n → O) (t : Fin n → Fl A) (r : Fin n) : Fl A :=
  (((t r).clip.exp L).div (floatDenominator L obs t (obs r)).pick).guardZero

/-- `chosen_probs` of `calc_probabilities`, choice_calcs.py:171-177, of an observation whose chosen rows are
`chosen`. -/
def floatChosenProbs (L : MathLib A) (obs : Fin n → O) (t : Fin n → Fl A) (chosen : List (Fin n)) (o : O) :
    Fl A :=
  (Fl.sum (chosen.map fun r => (Fl.round A 1).mul ((t r).clip.exp L))).div (floatDenominator L obs t o)

/-- `choice_vector.dot(weights * np.log(long_probs))` of `calc_log_likelihood`, choice_calcs.py:261-276 (without
weights `weights = 1`). -/
def floatLogLikelihood (L : MathLib A) (obs : Fin n → O) (t : Fin n → Fl A) (choice weights : Fin n → Fl A) :
    Fl A :=
  .sum ((List.finRange n).map fun r =>
    (choice r).mul ((weights r).mul ((floatLongProbs L obs t r).log L)))

end Probabilities

section Transformations

/-- Addition of the outside intercept of the row's alternative, if there are any (clog_log.py:180-202,
uneven_logit.py:210-232, asym_logit.py:315-337). -/
def Fl.addIntercept (x : Fl A) : Option (Fl A) → Fl A
  | none => x
  | some c => x.add c.pick

open Classical in
/-- `_cloglog_utility_transform` of one row, clog_log.py:162-202. -/
def floatClog (L : MathLib A) (v : Fl A) (intercept : Option (Fl A)) : Fl A :=
  let expV := v.exp L
  let expExpV := expV.exp L
  let t := ((expExpV.sub (.round A 1)).log L).guardNeg
  let t := if v.ge (.round A 3.7) then v.exp L else t
  t.guardPos.addIntercept intercept

/-- `_scobit_utility_transform` of one row, scobit.py:179-207, for the shape parameter of the row's alternative. -/
def floatScobit (L : MathLib A) (v shape : Fl A) (intercept : Option (Fl A)) : Fl A :=
  let longIntercept := (intercept.getD (.round A 0)).pick
  let naturalShape := (shape.exp L).guardPos.pick
  let expNegV := (((Fl.round A (-1)).mul v).exp L).guardPos
  let powered := (((Fl.round A 1).add expNegV).pow L naturalShape).guardPos
  let term2 := (powered.sub (.round A 1)).log L
  let term2 := match powered with
    | .pinf => ((Fl.round A (-1)).mul naturalShape).mul v
    | _ => term2
  (longIntercept.sub term2).guardPos.guardNeg

/-- `_uneven_utility_transform` of one row, uneven_logit.py:162-232. -/
def floatUneven (L : MathLib A) (v shape : Fl A) (intercept : Option (Fl A)) : Fl A :=
  let naturalShape := (shape.exp L).guardPos.pick
  let l1 := (((Fl.round A (-1)).mul v).exp L).log1p L
  let l1 := l1.ifInf ((Fl.round A (-1)).mul v)
  let scaled := ((Fl.round A (-1)).mul naturalShape).mul v
  let l2 := (scaled.exp L).log1p L
  let l2 := l2.ifInf scaled
  let t := ((v.add l1).sub l2).guardPos.guardNeg
  let t := match v with
    | .ninf => (Fl.maxComp A).neg
    | _ => t
  t.addIntercept intercept

/-- `exp_eta` of `_convert_eta_to_c`, asym_logit.py:145-150. -/
def floatExpEta (L : MathLib A) (eta : Fl A) : Fl A :=
  (eta.exp L).guardPos.guardZero

/-- `_convert_eta_to_c`, asym_logit.py:144-179, for the shape of a row's alternative: `none` for the reference
alternative, else the position of its shape parameter. -/
def floatShape (L : MathLib A) (eta : List (Fl A)) (pos : Option (Fin eta.length)) : Fl A :=
  let denom := (Fl.sum (eta.map (floatExpEta L))).add (.round A 1)
  match pos with
  | none => (Fl.round A 1).div denom
  | some i => (floatExpEta L (eta.get i)).div denom

open Classical in
/-- `_asym_utility_transform` of one row, asym_logit.py:284-341, for the natural shape `c` of the row's
alternative and `J` alternatives.  Products of a truth value and a number are modelled as such. -/
def floatAsym (L : MathLib A) (J : ℕ) (v c : Fl A) (intercept : Option (Fl A)) : Fl A :=
  let longShape := c.pick
  let logShape := (longShape.log L).guardNeg
  let log1SubShape := ((((Fl.round A 1).sub longShape).div (.round A ((J : ℝ) - 1))).log L).guardNeg
  let b : Prop → Fl A := fun p => if p then .round A 1 else .round A 0
  let multiplier := ((b (v.ge (.round A 0))).mul logShape).add ((b (v.lt (.round A 0))).mul log1SubShape)
  let t := logShape.sub (v.mul multiplier)
  let t := if v = .pinf ∧ longShape = .round A 1 then .round A 0 else t
  (t.addIntercept intercept).guardPos.guardNeg

end Transformations

end

end Pylogit
