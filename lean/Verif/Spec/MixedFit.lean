import Verif.Spec.WideFit
import Verif.Spec.Predict
import Verif.Spec.Mixed
import Verif.Spec.Random

/-!
# Specification vocabulary for the mixed logit on tables
-/

namespace Pylogit.Spec

/-- The draws of a person: the `j`-th array of the stream of the generator, started in state `s`, has one row per
person, in the order `people`, and one column per draw. -/
noncomputable def personDraw (g : Rng) (people : List ℝ) (d : ℕ) (s : g.State) (j : ℕ) (who : ℝ) (t : Fin d) : ℝ :=
  if h : people.idxOf who < people.length then normalStream g people.length d j s ⟨people.idxOf who, h⟩ t else 0

/-- The coefficients of a person under draw `t`: the means, each plus the standard deviation times the draw of every
mixed variable whose column it is. `z j` is the draw of the `j`-th mixed variable and `col j` its column. -/
noncomputable def personCoefs {n : ℕ} (mean : List ℝ) (sd : Fin n → ℝ) (col : Fin n → ℕ) (z : Fin n → ℝ) :
    List ℝ :=
  List.ofFn fun k : Fin mean.length => mean[k] + ∑ j with col j = k, sd j * z j

/-- The utility of a row under draw `t`: its described columns times the coefficients of the person the row belongs
to. -/
noncomputable def mixedUtility {n : ℕ} (df : Frame ℝ) (altCol mixCol : String) (cols : List (ColDesc ℝ))
    (mean : List ℝ) (sd : Fin n → ℝ) (col : Fin n → ℕ) (z : Fin n → ℝ → ℝ) (r : Fin df.numRows) : ℝ :=
  rowIndex df altCol cols (personCoefs mean sd col fun j => z j (df.val mixCol r)) r

/-- The simulated log-likelihood of a long table: over the people, the logarithm of the average over the draws of the
product of the logit probabilities of the rows the person chose; `u t` are the utilities under draw `t`. -/
noncomputable def tableSimLogLik {d : ℕ} (df : Frame ℝ) (obsCol mixCol choiceCol : String) (people : List ℝ)
    (u : Fin d → Fin df.numRows → ℝ) : ℝ :=
  (people.map fun who => Real.log (average fun t =>
    ∏ r with df.val mixCol r = who ∧ df.val choiceCol r = 1, clippedLogit (df.val obsCol) (u t) r)).sum

/-- The simulated log-likelihood of a wide table (one row per observation): over the people, the logarithm of the
average over the draws of the product over the person's observations of the logit probability of the choice among the
available alternatives; `u t` are the utilities under draw `t`. -/
noncomputable def WideSpec.simLogLik {n : ℕ} (d : WideSpec) (w : Frame ℝ) (mixCol : String) (people : List ℝ)
    (u : Fin n → Fin w.numRows → ℝ → ℝ) : ℝ :=
  (people.map fun who => Real.log (average fun t =>
    ∏ i with w.val mixCol i = who, Real.exp (u t i (w.val d.choiceCol i)) /
      ((d.choiceSet w i).map fun a => Real.exp (u t i a)).sum)).sum

end Pylogit.Spec
