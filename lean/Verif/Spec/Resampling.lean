import Mathlib.Probability.Independence.Basic
import Mathlib.Probability.Moments.Variance
import Mathlib.Data.Finset.Sort
import Verif.Spec.Random
import Verif.Spec.Sampler

/-!
# Specification vocabulary for the distribution of bootstrap samples

The generator is in a random state: `S ω` is its state in the outcome `ω` of a probability space.
-/

open MeasureTheory ProbabilityTheory Finset

namespace Pylogit.Spec

noncomputable section

/-- The `q`-th id that the generator chooses from the `j`-th of the lists, when asked for `N` times the length of each
list, one list after the other from state `s` on. -/
def pick (g : Rng) (N : ℕ) (l : List (List ℝ)) (s : g.State) (j q : ℕ) : ℝ :=
  (g.choice (l.getD j []) ((l.getD j []).length * N) (choiceState g N l s j)).1.getD q 0

/-- The ids the generator chooses from the lists are independent, and each is equally likely to be any of its list. -/
structure UniformPicks (g : Rng) {Ω : Type} [MeasurableSpace Ω] (μ : Measure Ω) (S : Ω → g.State) (N : ℕ)
    (l : List (List ℝ)) : Prop where
  indep : iIndepFun (fun (q : (j : Fin l.length) × Fin (l[j].length * N)) ω => pick g N l (S ω) q.1 q.2) μ
  meas : ∀ (j : Fin l.length) (q : Fin (l[j].length * N)), Measurable fun ω => pick g N l (S ω) j q
  uniform : ∀ (j : Fin l.length) (q : Fin (l[j].length * N)), ∀ o ∈ l[j],
    μ.real {ω | pick g N l (S ω) j q = o} = 1 / l[j].length

open Classical in
/-- The observations that chose `a`. -/
def choosersOf {n : ℕ} (obs alt choice : Fin n → ℝ) (a : ℝ) : Finset ℝ :=
  (univ.image obs).filter fun o => Chose obs alt choice o a

/-- For the alternatives in ascending order, the ids of the observations that chose them, in ascending order. -/
def choosers {n : ℕ} (obs alt choice : Fin n → ℝ) : List (List ℝ) :=
  ((univ.image alt).sort (· ≤ ·)).map fun a => (choosersOf obs alt choice a).sort (· ≤ ·)

/-- The mean of `f` over a finite set. -/
def setMean (A : Finset ℝ) (f : ℝ → ℝ) : ℝ := (∑ o ∈ A, f o) / A.card

end

end Pylogit.Spec
