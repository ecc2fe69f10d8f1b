import Mathlib.Probability.Distributions.Gaussian.Real
import Mathlib.Probability.Independence.Basic
import Mathlib.MeasureTheory.Constructions.Pi
import Verif.Spec.WholeFitMixed

/-!
# Specification vocabulary for simulated probabilities

The generator is in a random state: `S ω` is its state in the outcome `ω` of a probability space.
-/

open MeasureTheory ProbabilityTheory Finset

namespace Pylogit.Spec

noncomputable section

/-- The entries of the first `n` arrays of normal draws the generator returns, each with `people` rows and `d` columns, are
independent and have the standard normal distribution. -/
structure StandardNormalStream (g : Rng) {Ω : Type} [MeasurableSpace Ω] (μ : Measure Ω) (S : Ω → g.State)
    (n people d : ℕ) : Prop where
  indep : iIndepFun (fun (q : Fin n × Fin people × Fin d) ω => normalStream g people d q.1 (S ω) q.2.1 q.2.2) μ
  meas : ∀ (j : Fin n) i t, Measurable fun ω => normalStream g people d j (S ω) i t
  law : ∀ (j : Fin n) i t, μ.map (fun ω => normalStream g people d j (S ω) i t) = gaussianReal 0 1

/-- The mean of `h` over `n` independent standard normal variables. -/
def normalMean (n : ℕ) (h : (Fin n → ℝ) → ℝ) : ℝ := ∫ z, h z ∂Measure.pi fun _ : Fin n => gaussianReal 0 1

variable {n : ℕ} (df : Frame ℝ) (obsCol altCol : String) (cols : List (ColDesc ℝ)) (mean : List ℝ) (sd : Fin n → ℝ)
  (col : Fin n → ℕ)

/-- The utility of a row for a person whose deviates are `z`: the coefficients are the means plus the standard deviations
times the deviates. -/
def utilityAt (z : Fin n → ℝ) (r : Fin df.numRows) : ℝ := rowIndex df altCol cols (personCoefs mean sd col z) r

/-- The mixed logit probability of a row: the mean of its logit probability over normally distributed coefficients.
Utilities beyond 700 count as 700. -/
def mixedProb (r : Fin df.numRows) : ℝ :=
  normalMean n fun z => clippedLogit (df.val obsCol) (utilityAt df altCol cols mean sd col z) r

/-- The same without the bound on utilities: the mixed logit probability of the textbook. -/
def textbookMixedProb (r : Fin df.numRows) : ℝ :=
  normalMean n fun z => logitProb (df.val obsCol) (utilityAt df altCol cols mean sd col z) r

/-- The mixed logit probability of all choices of a person: the mean of the product of the logit probabilities of the rows
the person chose. -/
def mixedChoicesProb (mixCol choiceCol : String) (who : ℝ) : ℝ :=
  normalMean n fun z => ∏ r with df.val mixCol r = who ∧ df.val choiceCol r = 1,
    clippedLogit (df.val obsCol) (utilityAt df altCol cols mean sd col z) r

/-- The mixed logit log-likelihood of a table: over the people, the logarithms of the probabilities of their choices. -/
def mixedLogLik (mixCol choiceCol : String) (people : List ℝ) : ℝ :=
  (people.map fun who => Real.log (mixedChoicesProb df obsCol altCol cols mean sd col mixCol choiceCol who)).sum

end

end Pylogit.Spec
