import Verif.Spec.WholeFitTypes
import Verif.Spec.WholeFitNested
import Verif.Spec.Sampler
import Verif.Model.WholeBoot

/-!
# Specification vocabulary for replicates
-/

open Finset

namespace Pylogit.Spec

noncomputable section

/-- The part of the log-likelihood that observation `o` contributes. -/
def LongData.obsLogLik (D : LongData) (u : Fin D.df.numRows → ℝ) (o : ℝ) : ℝ :=
  ∑ r ∈ D.rows o, D.y r * Real.log (D.prob u r)

/-- The penalised log-likelihood of a sample of observations: the sum of their parts, each as often as the observation
was drawn. -/
def LongData.sampleLogLik (D : LongData) (sample : List ℝ) (ridge : Option ℝ) {n : ℕ}
    (U : (Fin n → ℝ) → Fin D.df.numRows → ℝ) (θ : Fin n → ℝ) : ℝ :=
  (sample.map (D.obsLogLik (U θ))).sum - ridge.getD 0 * ∑ k, θ k ^ 2

/-- The penalised log-likelihood of the observations other than `o`. -/
def LongData.logLikWithout (D : LongData) (o : ℝ) (ridge : Option ℝ) {n : ℕ}
    (U : (Fin n → ℝ) → Fin D.df.numRows → ℝ) (θ : Fin n → ℝ) : ℝ :=
  ∑ r with D.df.val D.obsCol r ≠ o, D.y r * Real.log (D.prob (U θ) r) - ridge.getD 0 * ∑ k, θ k ^ 2

/-- `x` is where the optimiser stopped when it was started at `x₀` and asked to minimise minus the log-likelihood `LL`;
the derivatives it was given are zero at the positions held fixed, and right elsewhere where `Good` holds. -/
def OptimisedBy (opts : PointOptions) {n : ℕ} (x₀ : List ℝ) (LL : (Fin n → ℝ) → ℝ) (Good : (Fin n → ℝ) → Prop)
    (x : Fin n → ℝ) : Prop :=
  x₀.length = n ∧ ∃ f h rep, opts.solver n f (fun i => x₀.getD i 0) h = .ok rep ∧ rep.x = x ∧ (∀ θ, (f θ).1 = -LL θ) ∧
    (∀ θ i, (∃ z ∈ opts.constrained.getD [], PosIs n z i) → (f θ).2 i = 0) ∧
    ∀ θ, Good θ → ∀ i, (∀ z ∈ opts.constrained.getD [], ¬ PosIs n z i) →
      HasDerivAt (fun s => -LL (Function.update θ i s)) ((f θ).2 i) (θ i)

/-- The penalty of a nested logit: on the distance of the nest coefficients from one and of the index coefficients from
zero. -/
def nestedPenalty {N k : ℕ} (ridge : Option ℝ) (θ : Fin (N + k) → ℝ) : ℝ :=
  ridge.getD 0 * (∑ q, (nestLambda θ q - 1) ^ 2 + ∑ i, indexPart θ i ^ 2)

/-- The penalised nested logit log-likelihood of a sample of observations, each counted as often as it was drawn. -/
def LongData.nestedSampleLogLik (D : LongData) (sample : List ℝ) (ridge : Option ℝ) {N k : ℕ}
    (g : Fin D.df.numRows → Fin N) (V : (Fin k → ℝ) → Fin D.df.numRows → ℝ) (θ : Fin (N + k) → ℝ) : ℝ :=
  (sample.map fun o => ∑ r ∈ D.rows o, D.y r * Real.log (D.nestedProb g V θ r)).sum - nestedPenalty ridge θ

/-- The penalised nested logit log-likelihood of the observations other than `o`. -/
def LongData.nestedLogLikWithout (D : LongData) (o : ℝ) (ridge : Option ℝ) {N k : ℕ}
    (g : Fin D.df.numRows → Fin N) (V : (Fin k → ℝ) → Fin D.df.numRows → ℝ) (θ : Fin (N + k) → ℝ) : ℝ :=
  ∑ r with D.df.val D.obsCol r ≠ o, D.y r * Real.log (D.nestedProb g V θ r) - nestedPenalty ridge θ

/-- `x` is where the optimiser stopped when it was started at `x₀` and asked to minimise minus the log-likelihood `LL` of
a nested logit; the derivatives it was given are zero at the positions held fixed - those of nests with one alternative
and those listed by the user -, right at the other coefficients of the index, and, if `NoExcess`, right at the
parameters of the other nests. -/
def NestedOptimisedBy (opts : PointOptions) (ns : List (String × List ℝ)) {k : ℕ} (x₀ : List ℝ)
    (LL : (Fin (ns.length + k) → ℝ) → ℝ) (NoExcess : Prop) (x : Fin (ns.length + k) → ℝ) : Prop :=
  x₀.length = ns.length + k ∧ ∃ con f h rep, NestedFixed ns opts.constrained con ∧
    opts.solver (ns.length + k) f (fun i => x₀.getD i 0) h = .ok rep ∧ rep.x = x ∧ (∀ θ, (f θ).1 = -LL θ) ∧
    (∀ θ i, (∃ z ∈ con, PosIs (ns.length + k) z i) → (f θ).2 i = 0) ∧
    ∀ θ i, (ns.length ≤ i.val ∨ NoExcess) → (∀ z ∈ con, ¬ PosIs (ns.length + k) z i) →
      HasDerivAt (fun s => -LL (Function.update θ i s)) ((f θ).2 i) (θ i)

end

end Pylogit.Spec
