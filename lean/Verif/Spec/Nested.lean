import Mathlib.Analysis.SpecialFunctions.Pow.Real
import Verif.Spec.Choice

/-!
# Specification: the textbook nested logit

`f r` is the observation of row `r`, `g r` its nest, `V r` its systematic utility and `lam m` the
coefficient of nest `m`.
-/

open Finset

namespace Pylogit.Spec

variable {R O N : Type} [Fintype R] [Fintype N] [DecidableEq O] [DecidableEq N]

/-- The rows of observation `o` in nest `m`. -/
def nestRows (f : R → O) (g : R → N) (o : O) (m : N) : Finset R := {s | f s = o ∧ g s = m}

/-- The nests that contain some alternative available to observation `o`. -/
def availNests (f : R → O) (g : R → N) (o : O) : Finset N := {m | (nestRows f g o m).Nonempty}

/-- `Σ exp(V / λ_m)` over the alternatives of nest `m` available to `o`. -/
noncomputable def nestSum (f : R → O) (g : R → N) (V : R → ℝ) (lam : N → ℝ) (o : O) (m : N) : ℝ :=
  ∑ s ∈ nestRows f g o m, Real.exp (V s / lam m)

/-- Probability that observation `o` chooses nest `m`: `S_m ^ λ_m` over the total of the available
nests. -/
noncomputable def nestProb (f : R → O) (g : R → N) (V : R → ℝ) (lam : N → ℝ) (o : O) (m : N) : ℝ :=
  nestSum f g V lam o m ^ lam m / ∑ m' ∈ availNests f g o, nestSum f g V lam o m' ^ lam m'

/-- Probability of row `r` given that its nest is chosen. -/
noncomputable def condProb (f : R → O) (g : R → N) (V : R → ℝ) (lam : N → ℝ) (r : R) : ℝ :=
  Real.exp (V r / lam (g r)) / nestSum f g V lam (f r) (g r)

/-- The nested logit probability of row `r`. -/
noncomputable def nestedProb (f : R → O) (g : R → N) (V : R → ℝ) (lam : N → ℝ) (r : R) : ℝ :=
  nestProb f g V lam (f r) (g r) * condProb f g V lam r

end Pylogit.Spec
