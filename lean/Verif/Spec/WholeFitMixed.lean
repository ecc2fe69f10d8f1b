import Verif.Spec.WholeFit
import Verif.Spec.MixedFit
import Verif.Model.WholeFitMixed

/-!
# Specification vocabulary for whole fits of the mixed logit model

A parameter vector has one mean per described column followed by one standard deviation per mixed variable; `U θ t r` is
the utility of row `r` under draw `t`; `people` are the people in the table, who are told apart by the column `mixCol`.
-/

open Finset Matrix

namespace Pylogit.Spec

noncomputable section

variable {n d : ℕ}

/-- The utilities of a mixed logit under the draws of the generator, started in state `s`: `cols` are the described
columns and `col j` is the position among them of the `j`-th mixed variable. -/
def drawnUtility (g : Rng) (df : Frame ℝ) (altCol mixCol : String) (cols : List (ColDesc ℝ)) (col : ℕ → ℕ)
    (people : List ℝ) (s : g.State) {k j d : ℕ} (θ : Fin (k + j) → ℝ) (t : Fin d) (r : Fin df.numRows) : ℝ :=
  mixedUtility df altCol mixCol cols (List.ofFn fun i => θ (Fin.castAdd j i)) (fun q : Fin j => θ (Fin.natAdd k q))
    (fun q => col q) (fun q who => personDraw g people d s q who t) r

/-- The probabilities of the rows of a table, averaged over the draws; `u t` are the utilities under draw `t`. -/
def averagedProb (df : Frame ℝ) (obsCol : String) (u : Fin d → Fin df.numRows → ℝ) (r : Fin df.numRows) : ℝ :=
  average fun t => clippedLogit (df.val obsCol) (u t) r

/-- The logarithm of the probability of all choices of a person, averaged over the draws. -/
def LongData.personLog (D : LongData) (mixCol : String) (u : Fin d → Fin D.df.numRows → ℝ) (who : ℝ) : ℝ :=
  Real.log (average fun t => ∏ r with D.df.val mixCol r = who ∧ D.y r = 1, D.prob (u t) r)

/-- The simulated log-likelihood of the choices, minus the penalty. -/
def LongData.simLogLik (D : LongData) (mixCol : String) (people : List ℝ) (ridge : Option ℝ)
    (U : (Fin n → ℝ) → Fin d → Fin D.df.numRows → ℝ) (θ : Fin n → ℝ) : ℝ :=
  (people.map (D.personLog mixCol (U θ))).sum - ridge.getD 0 * ∑ k, θ k ^ 2

/-- All rows of an observation belong to one person. -/
def LongData.Panel (D : LongData) (mixCol : String) : Prop :=
  ∀ r s, D.df.val D.obsCol r = D.df.val D.obsCol s → D.df.val mixCol r = D.df.val mixCol s

/-- The utilities where clipping changes nothing. -/
def Moderate {R : Type} (u : Fin d → R → ℝ) : Prop := ∀ t r, |u t r| < 700

/-- The fitted probabilities of a mixed logit, `p r t` of row `r` under draw `t`, and what is computed from them: one
column per draw. -/
structure DrawProbabilities (D : LongData) (p : Fin D.df.numRows → Fin d → ℝ) (t : FitAttrs) : Prop where
  longProbs : t.longFittedProbs = some (List.ofFn fun r => List.ofFn (p r))
  fittedProbs : t.fittedProbs = some (D.ids.map fun i => List.ofFn fun q => ∑ r ∈ D.rows i, D.y r * p r q)
  residuals : t.longResiduals = some (List.ofFn fun r => List.ofFn fun q => D.y r - p r q)
  indChi : t.indChiSquareds =
    some (D.ids.map fun i => List.ofFn fun q => ∑ r ∈ D.rows i, (D.y r - p r q) ^ 2 / p r q)
  chiSquare : t.chiSquare = some (∑ q, ∑ r, (D.y r - p r q) ^ 2 / p r q)

open Classical in
/-- The derivatives at the estimates `x`: the stored gradient; and the matrix `H` in place of the Hessian, minus the sum
over the people of the outer products of the derivatives of their log-probabilities, plus - where one expects minus -
twice the penalty on the diagonal, with the rows and columns of fixed parameters replaced by those of minus the
identity. -/
structure MixedDerivatives (D : LongData) (mixCol : String) (people : List ℝ) (ridge : Option ℝ)
    (U : (Fin n → ℝ) → Fin d → Fin D.df.numRows → ℝ) (con : Option (List ℤ)) (labels : Fin n → String)
    (x : Fin n → ℝ) (H : Matrix (Fin n) (Fin n) ℝ) (t : FitAttrs) : Prop where
  gradient : ∃ g, t.gradient = some ⟨List.ofFn labels, List.ofFn g⟩ ∧
    HasPartials (D.simLogLik mixCol people ridge U) g x
  hessian : ∃ S : ℝ → Fin n → ℝ,
    (∀ who ∈ people, HasPartials (fun θ => D.personLog mixCol (U θ) who) (S who) x) ∧
    ∀ i j, H i j = if ∃ z ∈ con.getD [], PosIs n z i ∨ PosIs n z j then (if i = j then -1 else 0)
      else -(people.map fun who => S who i * S who j).sum + 2 * ridge.getD 0 * (if i = j then 1 else 0)

/-- The stored matrix `H` in place of the Hessian, and the variances: minus the inverse of `H`, whose diagonal may be
negative; then the standard error is NaN. -/
structure VarianceReport (labels : Fin n → String) (con : Option (List ℤ)) (H : Matrix (Fin n) (Fin n) ℝ)
    (t : FitAttrs) : Prop where
  hessian : t.hessian = some ⟨List.ofFn labels, List.ofFn fun i => List.ofFn (H i)⟩
  symm : Hᵀ = H
  invertible : IsUnit H.det
  cov : t.cov = some ⟨List.ofFn labels, List.ofFn fun i => List.ofFn ((-H⁻¹) i)⟩
  stdErrs : ∃ se, t.stdErrs = some ⟨List.ofFn labels, List.ofFn se⟩ ∧ ∀ i,
    (FixedLabel labels con i → se i = none) ∧ ((-H⁻¹) i i < 0 → se i = none) ∧
    (¬ FixedLabel labels con i → 0 ≤ (-H⁻¹) i i → se i = some (Real.sqrt ((-H⁻¹) i i)))

/-- The state in which the generator makes the draws: the present one, or that of the seed. -/
def DrawsFrom (g : Rng) (seed : Option IntArg) (s s₀ : g.State) : Prop :=
  seed = none ∧ s₀ = s ∨ ∃ k : ℤ, 0 < k ∧ seed = some (.int k) ∧ g.seed k = .ok s₀

/-- The average of the entries of every row. -/
def rowMeans (l : List (List ℝ)) : List ℝ := l.map fun row => row.sum / row.length

/-- A prediction of a model object from its stored parameters, with draws made from the state `s₀`, returns the averages
over the draws of the probabilities it has stored as fitted: of all rows, or of the choices; it cannot return both. -/
structure MixedReproduces (env : Env ℝ) (g : Rng) (m : ChoiceModel ℝ) (t : FitAttrs) (df : Frame ℝ) (numDraws : IntArg)
    (s₀ : g.State) : Prop where
  long : ∀ seed st, DrawsFrom g seed st s₀ → ∃ p v s' l, storedArrays t = .ok p ∧
    predictMixedFrame env g m t.names.indVarNames p (addIntercept m.args.specification df) none true none numDraws
      seed st = .ok (.inl v, s') ∧ t.longFittedProbs = some l ∧ List.ofFn v = rowMeans l
  chosen : ∀ seed st, DrawsFrom g seed st s₀ → ∃ p v s' l, storedArrays t = .ok p ∧
    predictMixedFrame env g m t.names.indVarNames p (addIntercept m.args.specification df) none false
      (some m.args.choiceCol) numDraws seed st = .ok (.inr v, s') ∧ t.fittedProbs = some l ∧ List.ofFn v = rowMeans l
  both : ∀ seed st, DrawsFrom g seed st s₀ → ∃ p, storedArrays t = .ok p ∧
    predictMixedFrame env g m t.names.indVarNames p (addIntercept m.args.specification df) none true
      (some m.args.choiceCol) numDraws seed st = .error .attributeError

end

end Pylogit.Spec
