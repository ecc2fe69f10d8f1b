import Verif.Spec.WholeFit
import Verif.Spec.Nested
import Verif.Model.WholeFitNested

/-!
# Specification vocabulary for whole fits of the nested logit model

A parameter vector has one entry per nest followed by one per described column; `g` gives the nest of every row and
`V β` the index of every row at the coefficients `β`.
-/

open Finset Matrix

namespace Pylogit.Spec

noncomputable section

variable {N k : ℕ}

/-- The nest coefficient of nest `q`: the logistic function of its parameter. -/
def nestLambda (θ : Fin (N + k) → ℝ) (q : Fin N) : ℝ := 1 / (1 + Real.exp (-θ (Fin.castAdd k q)))

/-- The entries of the vector that are index coefficients. -/
def indexPart (θ : Fin (N + k) → ℝ) (i : Fin k) : ℝ := θ (Fin.natAdd N i)

/-- The textbook nested logit probability of a row within its observation. -/
def LongData.nestedProb (D : LongData) (g : Fin D.df.numRows → Fin N) (V : (Fin k → ℝ) → Fin D.df.numRows → ℝ)
    (θ : Fin (N + k) → ℝ) : Fin D.df.numRows → ℝ :=
  Spec.nestedProb (D.df.val D.obsCol) g (V (indexPart θ)) (nestLambda θ)

/-- The log-likelihood of the choices; the penalty is on the distance of the nest coefficients from one and of the
index coefficients from zero. -/
def LongData.nestedLogLik (D : LongData) (ridge : Option ℝ) (g : Fin D.df.numRows → Fin N)
    (V : (Fin k → ℝ) → Fin D.df.numRows → ℝ) (θ : Fin (N + k) → ℝ) : ℝ :=
  ∑ r, D.y r * Real.log (D.nestedProb g V θ r) -
    ridge.getD 0 * (∑ q, (nestLambda θ q - 1) ^ 2 + ∑ i, indexPart θ i ^ 2)

/-- No row of the observation `i` is in nest `q`. -/
def LongData.Lacks (D : LongData) (g : Fin D.df.numRows → Fin N) (i : ℝ) (q : Fin N) : Prop :=
  ∀ r ∈ D.rows i, g r ≠ q

open Classical in
/-- What the stored gradient has too much at the entry of a nest: `λ (1 - λ)` for every observation without a row in
the nest, and the difference between the right and the wrong derivative of the penalty. -/
def LongData.nestedExcess (D : LongData) (ridge : Option ℝ) (g : Fin D.df.numRows → Fin N) (θ : Fin (N + k) → ℝ) :
    Fin (N + k) → ℝ :=
  Fin.addCases (fun q => nestLambda θ q * (1 - nestLambda θ q) * (D.ids.filter fun i => D.Lacks g i q).length +
      ridge.getD 0 * (2 * (nestLambda θ q - 1) * (nestLambda θ q * (1 - nestLambda θ q)) -
        2 * (20 - θ (Fin.castAdd k q))))
    fun _ => 0

open Classical in
/-- What the stored derivatives of the log-probability of a row have too much at the entry of a nest. -/
def LongData.nestedScoreExcess (D : LongData) (g : Fin D.df.numRows → Fin N) (θ : Fin (N + k) → ℝ)
    (r : Fin D.df.numRows) : Fin (N + k) → ℝ :=
  Fin.addCases (fun q => if D.Lacks g (D.df.val D.obsCol r) q then nestLambda θ q * (1 - nestLambda θ q) else 0)
    fun _ => 0

/-- The positions a fit holds fixed: those of nests with a single alternative, and those the user listed. -/
def NestedFixed (ns : List (String × List ℝ)) (user : Option (List ℤ)) (con : List ℤ) : Prop :=
  ∀ z, z ∈ con ↔ (∃ q : ℕ, z = q ∧ ∃ name alt, ns[q]? = some (name, [alt])) ∨ z ∈ user.getD []

open Classical in
/-- The derivatives at the estimates `x`: the stored gradient, up to the excess; and the matrix `H` in place of the
Hessian, minus the sum over the choices of the outer products of the scores (also up to an excess) minus twice the
penalty on the diagonal, with the rows and columns of fixed parameters replaced by those of minus the identity. -/
structure NestedDerivatives (D : LongData) (ridge : Option ℝ) (g : Fin D.df.numRows → Fin N)
    (V : (Fin k → ℝ) → Fin D.df.numRows → ℝ) (con : List ℤ) (labels : Fin (N + k) → String) (x : Fin (N + k) → ℝ)
    (H : Matrix (Fin (N + k)) (Fin (N + k)) ℝ) (t : FitAttrs) : Prop where
  gradient : ∃ d, t.gradient = some ⟨List.ofFn labels, List.ofFn d⟩ ∧
    HasPartials (D.nestedLogLik ridge g V) (fun i => d i - D.nestedExcess ridge g x i) x
  hessian : ∃ S : Fin D.df.numRows → Fin (N + k) → ℝ,
    (∀ r, D.y r = 1 → HasPartials (fun θ => Real.log (D.nestedProb g V θ r))
      (fun i => S r i - D.nestedScoreExcess g x r i) x) ∧
    ∀ i j, H i j = if ∃ z ∈ con, PosIs (N + k) z i ∨ PosIs (N + k) z j then (if i = j then -1 else 0)
      else -∑ r, D.y r * (S r i * S r j) - 2 * ridge.getD 0 * (if i = j then 1 else 0)

end

end Pylogit.Spec
