import Verif.Lemmas.Binary64
import Verif.Spec.Choice
import Verif.Spec.Float
import Verif.Model.FloatMnl

/-!
# Specification of accurate floating point results
-/

namespace Pylogit.Spec

variable {n k : ℕ} {O : Type} [DecidableEq O]

/-- A binary64 number that differs from the real number `y` by at most `e`. -/
def Within (x : Fl binary64) (y e : ℝ) : Prop := IsNum x fun z => |z - y| ≤ e

/-- The distance of 1 and the next binary64 number. -/
noncomputable def ulp : ℝ := 2 ^ (-52 : ℤ)

/-- The error of numbers that underflow. -/
noncomputable def tiny : ℝ := 2 ^ (-1075 : ℤ)

/-- Exponentials are computed with an error of at most one unit in the last place. -/
def ExpAccurate (L : MathLib binary64) : Prop :=
  ∀ x : binary64.Num, |x.1| ≤ 700 → Within (L.exp x) (Real.exp x.1) (ulp * Real.exp x.1)

/-- So are logarithms (up to an underflow). -/
def LogAccurate (L : MathLib binary64) : Prop :=
  ∀ x : binary64.Num, 0 < x.1 → |(L.log x).1 - Real.log x.1| ≤ ulp * |Real.log x.1| + tiny

/-- The exact utilities. -/
noncomputable def exactUtility (x : Fin n → Fin k → binary64.Num) (beta : Fin k → binary64.Num) (r : Fin n) : ℝ :=
  ∑ j, (x r j).1 * (beta j).1

/-- Data of a moderate size: the terms of every utility add up to at most `V ≤ 300` in absolute value, there are at most
2^20 of them, and no observation has more than `m ≤ 2^20` rows. -/
structure ModerateSize (obs : Fin n → O) (x : Fin n → Fin k → binary64.Num) (beta : Fin k → binary64.Num) (V : ℝ) (m : ℕ) :
    Prop where
  terms : ∀ r, ∑ j, |(x r j).1 * (beta j).1| ≤ V
  utility : V ≤ 300
  columns : k ≤ 2 ^ 20
  rows : ∀ o, Finset.card {r | obs r = o} ≤ m
  rows_le : m ≤ 2 ^ 20

/-- The relative error of the probabilities of a logit with `m` alternatives whose utilities have errors up to `a`. -/
noncomputable def probError (m : ℕ) (a : ℝ) : ℝ := 2 * a + (2 * m + 6) * ulp

/-- The error of utilities of `k` terms. -/
noncomputable def dotError (k : ℕ) (V : ℝ) : ℝ := (k + 1) * ulp * (V + 1)

end Pylogit.Spec
