import Verif.Model.Estimators

/-!
# Specification vocabulary for changes of units and of coding
-/

open Matrix

namespace Pylogit.Spec

variable {R O A K ι P : Type}

/-- The same data with other variables in the columns of the design matrix: each new column is the
combination of the old columns that the matrix `M` gives. -/
def recoded [Fintype K] (d : FitData R O A K ι) (M : Matrix K K ℝ) : FitData R O A K ι :=
  { d with design := d.design * M }

/-- The same data with column `k` multiplied by `c k`: other units of measurement. -/
def rescaled (d : FitData R O A K ι) (c : K → ℝ) : FitData R O A K ι :=
  { d with design := Matrix.of fun r k => d.design r k * c k }

/-- `e'` is `e` in other parameters: the parameters `x` of `e'` stand for the parameters `J x` of `e`. -/
structure Reexpressed [Fintype P] (J : Matrix P P ℝ) (e e' : Estimator P) : Prop where
  logLik : ∀ x, e'.logLik x = e.logLik (J *ᵥ x)
  gradient : ∀ x, e'.gradient x = Jᵀ *ᵥ e.gradient (J *ᵥ x)
  hessian : ∀ x, e'.hessian x = Jᵀ * e.hessian (J *ᵥ x) * J

/-- Only the last parameters, the coefficients, are re-expressed. -/
def onCoefs {S : Type} [DecidableEq S] (M : Matrix K K ℝ) : Matrix (S ⊕ K) (S ⊕ K) ℝ :=
  Matrix.fromBlocks 1 0 0 M

/-- `x` is at least as good as every other parameter vector. -/
def Best (e : Estimator P) (x : P → ℝ) : Prop := ∀ y, e.logLik y ≤ e.logLik x

/-- `e'` is `e` after the variable of parameter `i` was multiplied by `s i`: dividing each parameter by its factor
leaves the log-likelihood as it is, multiplies the derivatives by the factors, and takes the best parameters of `e`
to those of `e'`. -/
structure UnitsFree (s : P → ℝ) (e e' : Estimator P) : Prop where
  logLik : ∀ x, e'.logLik (fun i => x i / s i) = e.logLik x
  gradient : ∀ x i, e'.gradient (fun i => x i / s i) i = s i * e.gradient x i
  hessian : ∀ x i j, e'.hessian (fun i => x i / s i) i j = s i * s j * e.hessian x i j
  best : ∀ x, Best e' (fun i => x i / s i) ↔ Best e x

/-- The factors of all parameters: 1, except for the coefficients. -/
def coefUnits {S : Type} (c : K → ℝ) : S ⊕ K → ℝ := Sum.elim (fun _ => 1) c

end Pylogit.Spec
