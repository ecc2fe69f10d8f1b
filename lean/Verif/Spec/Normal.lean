import Mathlib.Probability.CDF
import Mathlib.Probability.Distributions.Gaussian.Real

/-!
# The standard normal distribution

Mathlib's Gaussian measure with mean 0 and variance 1.
-/

open MeasureTheory ProbabilityTheory

namespace Pylogit.Spec

noncomputable section

/-- The standard normal distribution function. -/
def normCdf (x : ℝ) : ℝ := (gaussianReal 0 1).real (Set.Iic x)

/-- The standard normal survival function (`scipy.stats.norm.sf`). -/
def normSf (x : ℝ) : ℝ := (gaussianReal 0 1).real (Set.Ioi x)

/-- `ppf` is the standard normal quantile function on (0, 1) (`scipy.stats.norm.ppf`). -/
def IsNormQuantile (ppf : ℝ → ℝ) : Prop := ∀ q, 0 < q → q < 1 → normCdf (ppf q) = q

end

end Pylogit.Spec
