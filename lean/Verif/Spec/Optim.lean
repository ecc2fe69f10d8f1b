import Mathlib.LinearAlgebra.Span.Basic
import Mathlib.Data.Matrix.Mul
import Verif.Model.Estimation

/-!
# Specification: what is assumed of the external optimiser

`scipy.optimize.minimize` is external.  These predicates describe families of optimisers.
-/

open Matrix

namespace Pylogit.Spec

variable {P : Type}

/-- The reported value is the objective at the reported point. -/
def Faithful (m : Minimizer P) : Prop := ∀ f x₀ h, (m f x₀ h).fun_ = (f (m f x₀ h).x).1

/-- The reported value is not worse than the value at the starting point. -/
def Descends (m : Minimizer P) : Prop := ∀ f x₀ h, (m f x₀ h).fun_ ≤ (f x₀).1

/-- The optimiser finds a global minimum of the objective `f`. -/
def FindsMinimum (m : Minimizer P) (f : (P → ℝ) → ℝ × (P → ℝ)) : Prop :=
  ∀ x₀ h y, (f (m f x₀ h).x).1 ≤ (f y).1

/-- All linear combinations of gradients of the objective. -/
def gradientSpan (f : (P → ℝ) → ℝ × (P → ℝ)) : Submodule ℝ (P → ℝ) :=
  Submodule.span ℝ (Set.range fun x => (f x).2)

/-- The smallest space of directions that contains all gradients and is closed under
multiplication by Hessians: where methods that use Hessian-vector products (Newton-CG,
trust-ncg, ...) take their steps. -/
def krylovSpan [Fintype P] (f : (P → ℝ) → ℝ × (P → ℝ)) (h : (P → ℝ) → Matrix P P ℝ) :
    Submodule ℝ (P → ℝ) :=
  sInf {W | (∀ x, (f x).2 ∈ W) ∧ ∀ x, ∀ v ∈ W, h x *ᵥ v ∈ W}

/-- The total displacement is a combination of gradients (steepest descent, conjugate gradients,
BFGS, L-BFGS). -/
def GradientMethod (m : Minimizer P) : Prop := ∀ f x₀ h, (m f x₀ h).x - x₀ ∈ gradientSpan f

/-- The total displacement lies in the span of gradients and Hessian-vector products. -/
def HessianMethod [Fintype P] (m : Minimizer P) : Prop :=
  ∀ f x₀ h, (m f x₀ h).x - x₀ ∈ krylovSpan f h

/-- A BFGS run (the default method of `fit_mle`): iterates `x`, inverse-Hessian approximations `B`
starting at the identity, any step lengths `α` and any curvature factors `ρ`. -/
structure BFGSRun [Fintype P] [DecidableEq P] (g : (P → ℝ) → P → ℝ) (x : ℕ → P → ℝ)
    (B : ℕ → Matrix P P ℝ) (α ρ : ℕ → ℝ) : Prop where
  start : B 0 = 1
  step : ∀ k, x (k + 1) = x k - α k • (B k *ᵥ g (x k))
  update : ∀ k, B (k + 1) =
    (1 - ρ k • vecMulVec (x (k + 1) - x k) (g (x (k + 1)) - g (x k))) * B k *
        (1 - ρ k • vecMulVec (g (x (k + 1)) - g (x k)) (x (k + 1) - x k))
      + ρ k • vecMulVec (x (k + 1) - x k) (x (k + 1) - x k)

/-- A Newton run: every step is a multiple of a solution `p` of `H p = -g`. -/
def NewtonRun [Fintype P] (g : (P → ℝ) → P → ℝ) (h : (P → ℝ) → Matrix P P ℝ) (x : ℕ → P → ℝ) : Prop :=
  ∀ k, ∃ (p : P → ℝ) (α : ℝ), h (x k) *ᵥ p = -g (x k) ∧ x (k + 1) = x k + α • p

end Pylogit.Spec
