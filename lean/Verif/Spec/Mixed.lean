import Verif.Spec.Choice
import Mathlib.Algebra.BigOperators.Group.Finset.Basic

/-!
# Specification vocabulary for the mixed logit

`f` assigns observations to rows, `g` assigns individuals (mixing units) to rows.
-/

open Finset

namespace Pylogit.Spec

variable {R O M K J D ι : Type}

/-- All rows of an observation belong to the same individual. -/
def PanelData (f : R → O) (g : R → M) : Prop := ∀ r s, f r = f s → g r = g s

/-- The coefficient of variable `k` for individual `m` under draw `d`: its mean plus, for every mixed
variable `j` that is variable `k`, the standard deviation times the individual's draw. -/
def randomCoef [Fintype J] [DecidableEq K] (mean : K → ℝ) (sd : J → ℝ) (pos : J → K)
    (draws : J → M → D → ℝ) (m : M) (d : D) (k : K) : ℝ :=
  mean k + ∑ j with pos j = k, sd j * draws j m d

/-- The utility clipped to `[-700, 700]`. -/
noncomputable def clip700 (x : ℝ) : ℝ := max (-700) (min x 700)

/-- The logit probabilities of utilities clipped to `[-700, 700]`. -/
noncomputable def clippedLogit [Fintype R] [DecidableEq O] (f : R → O) (h : R → ℝ) (r : R) : ℝ :=
  logitProb f (fun r => clip700 (h r)) r

/-- The probability of the choices an individual made: the product of the probabilities of the rows
of the individual that were chosen. -/
noncomputable def sequenceProb [Fintype R] [DecidableEq M] (g : R → M) (choice : R → ℝ)
    (p : R → ℝ) (m : M) : ℝ :=
  ∏ r with g r = m ∧ choice r = 1, p r

/-- The average over the draws. -/
noncomputable def average [Fintype D] (x : D → ℝ) : ℝ := (Fintype.card D : ℝ)⁻¹ * ∑ d, x d

/-- Every choice indicator is 0 or 1. -/
def ZeroOne (choice : R → ℝ) : Prop := ∀ r, choice r = 0 ∨ choice r = 1

/-- The individuals present in both tables appear in the same order of first appearance. -/
def SameOrder [DecidableEq ι] (old new : List ι) : Prop :=
  ∀ i j, i ∈ old → i ∈ new → j ∈ old → j ∈ new →
    (old.idxOf i < old.idxOf j ↔ new.idxOf i < new.idxOf j)

end Pylogit.Spec

namespace Pylogit.Spec

variable {R O M K J D ι : Type}

/-- The probability, under draw `d` of person `who`, of the choices that person `i` made in the
estimation data (rows `old`, observations `f`, design `X`, choices `y`). -/
noncomputable def historyProb [Fintype R] [DecidableEq O] [DecidableEq ι] [Fintype K]
    [DecidableEq K] [Fintype J] (ids : R → ι) (f : R → O) (X : Matrix R K ℝ) (y : R → ℝ)
    (mean : K → ℝ) (sd : J → ℝ) (pos : J → K) (draws : J → ι → D → ℝ) (who i : ι) (d : D) : ℝ :=
  sequenceProb ids y
    (clippedLogit f fun s => ∑ k, X s k * randomCoef mean sd pos draws who d k) i

/-- The probability of row `r` of the new data under draw `d` of the person the row belongs to. -/
noncomputable def newRowProb [Fintype R] [DecidableEq O] [DecidableEq ι] [Fintype K]
    [DecidableEq K] [Fintype J] (ids : R → ι) (f : R → O) (X : Matrix R K ℝ)
    (mean : K → ℝ) (sd : J → ℝ) (pos : J → K) (draws : J → ι → D → ℝ) (r : R) (d : D) : ℝ :=
  clippedLogit f (fun s => ∑ k, X s k * randomCoef mean sd pos draws (ids s) d k) r

/-- The average of `x` weighted by `w`. -/
noncomputable def weightedAverage [Fintype D] (w x : D → ℝ) : ℝ := (∑ d, w d * x d) / ∑ d, w d

end Pylogit.Spec
