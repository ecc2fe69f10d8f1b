import Mathlib.Algebra.BigOperators.Group.Finset.Basic
import Mathlib.Data.Real.Basic
import Mathlib.Data.Fintype.Card

/-!
# Specification vocabulary for ABC intervals: moments over observations
-/

open Finset

namespace Pylogit.Spec

variable {O P : Type} [Fintype O]

/-- Mean over observations. -/
noncomputable def obsMean (t : O → P → ℝ) (p : P) : ℝ := (∑ o, t o p) / Fintype.card O

/-- Sum of `k`-th powers of the deviations from the mean. -/
noncomputable def obsMoment (t : O → P → ℝ) (k : ℕ) (p : P) : ℝ := ∑ o, (t o p - obsMean t p) ^ k

/-- The value of a quadratic form at a direction. -/
noncomputable def quadForm (H : O → O → ℝ) (d : O → ℝ) : ℝ := ∑ a, ∑ b, d a * d b * H a b

/-- A quadratic statistic of the observation weights, expanded about equal weights: value `μ`, linear
coefficients `l`, second derivatives `H`. -/
noncomputable def quadStatistic (μ : P → ℝ) (l : O → P → ℝ) (H : P → O → O → ℝ) (w : O → ℝ) (p : P) :
    ℝ :=
  μ p + ∑ o, (w o - 1 / Fintype.card O) * l o p +
    1 / 2 * quadForm (H p) fun o => w o - 1 / Fintype.card O

end Pylogit.Spec
