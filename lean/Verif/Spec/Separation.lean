import Verif.Spec.Mixed
import Verif.Spec.WholeFit

/-!
# Specification vocabulary for the existence of multinomial logit estimates

`f r` is the observation of row `r`, `a r` says how often the row counts as chosen: 0 or 1 in the data themselves,
and up to the number of times the observation was drawn in a resample.
-/

open Finset Matrix

namespace Pylogit.Spec

variable {R O K : Type} [Fintype R] [DecidableEq O] [Fintype K]

/-- The textbook logit log-likelihood of choices `a` under utilities `u`. -/
noncomputable def logitLogLik (f : R → O) (a u : R → ℝ) : ℝ := ∑ r, a r * Real.log (logitProb f u r)

/-- The same with utilities clipped to `[-700, 700]`. -/
noncomputable def clippedLogLik (f : R → O) (a u : R → ℝ) : ℝ := ∑ r, a r * Real.log (clippedLogit f u r)

/-- `x` is a maximum likelihood estimate among the coefficient vectors that agree with `x₀` at the fixed positions. -/
def IsLogitEstimate (f : R → O) (a : R → ℝ) (X : Matrix R K ℝ) (fixed : List K) (x₀ x : K → ℝ) : Prop :=
  (∀ i ∈ fixed, x i = x₀ i) ∧
    ∀ y, (∀ i ∈ fixed, y i = x₀ i) → logitLogLik f a (X *ᵥ y) ≤ logitLogLik f a (X *ᵥ x)

/-- Moving the coefficients in the direction `δ` raises no utility of an observation by more than that of a row chosen
there, and that of some row by less: the direction predicts the choices. -/
def Separates (f : R → O) (a : R → ℝ) (X : Matrix R K ℝ) (δ : K → ℝ) : Prop :=
  (∀ r s, 0 < a r → f s = f r → (X *ᵥ δ) s ≤ (X *ᵥ δ) r) ∧
    ∃ r s, 0 < a r ∧ f s = f r ∧ (X *ᵥ δ) s < (X *ᵥ δ) r

/-- The values of the described columns in the rows of the table: what the coefficients multiply. -/
noncomputable def describedMatrix (df : Frame ℝ) (altCol : String) (cols : List (ColDesc ℝ)) (n : ℕ) :
    Matrix (Fin df.numRows) (Fin n) ℝ :=
  Matrix.of fun r k => ((cols[k.val]?).map fun d => d.value df altCol r).getD 0

/-- The choices without those of the observation `o`. -/
noncomputable def LongData.others (D : LongData) (o : ℝ) (r : Fin D.df.numRows) : ℝ :=
  if D.df.val D.obsCol r = o then 0 else D.y r

/-- The choices in a sample of observations, each as often as its observation was drawn. -/
noncomputable def LongData.drawn (D : LongData) (sample : List ℝ) (r : Fin D.df.numRows) : ℝ :=
  sample.count (D.df.val D.obsCol r) * D.y r

/-- No combination of the columns, other than that with all coefficients zero, is constant within every
observation. -/
def Identified (df : Frame ℝ) (obsCol altCol : String) (cols : List (ColDesc ℝ)) : Prop :=
  ∀ v : Fin cols.length → ℝ, (∀ r s, df.val obsCol r = df.val obsCol s →
    rowIndex df altCol cols (List.ofFn v) r = rowIndex df altCol cols (List.ofFn v) s) → v = 0

end Pylogit.Spec
