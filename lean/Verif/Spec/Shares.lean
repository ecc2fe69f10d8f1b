import Verif.Spec.Choice

/-!
# Specification: observed and predicted totals
-/

open Finset

namespace Pylogit.Spec

variable {R O A : Type} [Fintype R] [Fintype O] [DecidableEq A]

/-- The weighted total of a variable over the chosen rows. -/
def observedTotal (w x : R → ℝ) (c : O → R) : ℝ := ∑ o, w (c o) * x (c o)

/-- The weighted total of a variable a model with probabilities `p` predicts. -/
def predictedTotal (w x p : R → ℝ) : ℝ := ∑ r, w r * (p r * x r)

/-- The weighted number of observations that chose alternative `j`. -/
def observedShare (w : R → ℝ) (alt : R → A) (c : O → R) (j : A) : ℝ :=
  ∑ o ∈ univ.filter fun o => alt (c o) = j, w (c o)

/-- The weighted number of observations a model with probabilities `p` predicts to choose alternative `j`. -/
def predictedShare (w : R → ℝ) (alt : R → A) (p : R → ℝ) (j : A) : ℝ :=
  ∑ r ∈ univ.filter fun r => alt r = j, w r * p r

end Pylogit.Spec
