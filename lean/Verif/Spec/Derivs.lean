import Verif.Model.ChoiceCalcs
import Mathlib.Analysis.Calculus.Deriv.Basic

/-!
# Specification: what it means for the derivative matrices to be right

`update x i t` is the vector `x` with its `i`-th entry replaced by `t`; a partial derivative is
the derivative of `t ↦ F (update x i t)` at `t = x i`.
-/

open Function

namespace Pylogit.Spec

variable {R A S I P ι : Type} [DecidableEq R] [DecidableEq S] [DecidableEq I]

/-- `F` has partial derivative `g i` in every coordinate `i` at `x`. -/
def HasPartials [DecidableEq P] (F : (P → ℝ) → ℝ) (g : P → ℝ) (x : P → ℝ) : Prop :=
  ∀ i, HasDerivAt (fun t => F (update x i t)) (g i) (x i)

/-- The matrix of partial derivatives of a vector function. -/
def HasJacobian [DecidableEq P] (F : (P → ℝ) → R → ℝ) (J : Matrix R P ℝ) (x : P → ℝ) : Prop :=
  ∀ r, HasPartials (fun y => F y r) (J r) x

/-- The three derivative matrices in `d` are the Jacobians of the transformation `T` in the
systematic utilities, the shape parameters and the intercept parameters (when present). -/
structure DerivsCorrect (T : Transform R A S I ι) (d : Derivs R S I) (v : R → ℝ) (ids : R → ι)
    (rta : Matrix R A ℝ) (shape : Option (S → ℝ)) (icpt : Option (I → ℝ)) : Prop where
  dv : HasJacobian (fun v => T v ids rta shape icpt) d.dhdv v
  dc : ∀ s, shape = some s → HasJacobian (fun s => T v ids rta (some s) icpt) d.dhdc s
  da : ∀ a, icpt = some a → HasJacobian (fun a => T v ids rta shape (some a)) d.dhdalpha a

/-- The transformed utility of a row depends on the systematic utility of that row only. -/
def Rowwise (T : Transform R A S I ι) (ids : R → ι) (rta : Matrix R A ℝ)
    (shape : Option (S → ℝ)) (icpt : Option (I → ℝ)) : Prop :=
  ∀ r v v', v r = v' r → T v ids rta shape icpt r = T v' ids rta shape icpt r

end Pylogit.Spec
