import Verif.Model.Predict
import Verif.Spec.Choice
import Verif.Spec.Design
import Verif.Spec.Mixed

/-!
# Specification vocabulary for predictions

Parameters that belong to alternatives are written as functions of the alternative's id.
-/

open Finset

namespace Pylogit.Spec

/-- The alternative-specific parameters of a model, by alternative id: outside intercepts, and shapes as
estimated (on the log scale; relative to the reference alternative for the asymmetric model). -/
structure AltParams where
  icpt : ℝ → ℝ
  shape : ℝ → ℝ

/-- `x` lists the values of `q` at the alternatives other than the one at the reference position, where `q`
is zero. -/
def ListsOthers (alts : List ℝ) (ref : PyRef) (q : ℝ → ℝ) (x : List ℝ) : Prop :=
  ∃ (z : ℕ) (h : z < alts.length), ref = .int z ∧ x = (alts.eraseIdx z).map q ∧ q alts[z] = 0

/-- The parameter arrays `p` of a model with the given reference positions hold the values of `q` for the
alternatives `alts`, in the order the package documents: ascending ids, without the reference. -/
structure HoldsFor (cls : ModelType) (alts : List ℝ) (icptRef shapeRef : PyRef) (p : ParamArrays)
    (q : AltParams) : Prop where
  noIcpt : p.intercepts = none → ∀ a ∈ alts, q.icpt a = 0
  icpt : ∀ x, p.intercepts = some x → ListsOthers alts icptRef q.icpt x
  shape : cls = .scobit ∨ cls = .uneven → p.shapes = some (alts.map q.shape)
  eta : cls = .asym → ∃ x, p.shapes = some x ∧ ListsOthers alts shapeRef q.shape x

/-- The transformed utility of a row of alternative `a` with index `v`, as each model documents it. -/
noncomputable def rowUtility (cls : ModelType) (alts : List ℝ) (q : AltParams) (a v : ℝ) : ℝ :=
  match cls with
  | .cloglog => q.icpt a + if 3.7 ≤ v then Real.exp v else Real.log (Real.exp (Real.exp v) - 1)
  | .scobit => q.icpt a - Real.log ((1 + Real.exp (-v)) ^ Real.exp (q.shape a) - 1)
  | .uneven =>
    q.icpt a + v + Real.log (1 + Real.exp (-v)) - Real.log (1 + Real.exp (-(Real.exp (q.shape a) * v)))
  | .asym =>
    let c := Real.exp (q.shape a) / (alts.map fun b => Real.exp (q.shape b)).sum
    q.icpt a + (Real.log c - v * if 0 ≤ v then Real.log c else Real.log ((1 - c) / (alts.length - 1)))
  | _ => v

/-- The index of a row: each coefficient times its described column. -/
noncomputable def rowIndex (df : Frame ℝ) (altCol : String) (cols : List (ColDesc ℝ)) (beta : List ℝ)
    (r : Fin df.numRows) : ℝ :=
  ((cols.zip beta).map fun p => p.1.value df altCol r * p.2).sum

/-- The columns a specification asks for. -/
def specColumns (alts : List ℝ) (s : List (String × SpecVal ℝ)) : List (ColDesc ℝ) :=
  s.flatMap fun kv => kv.2.columns alts kv.1

/-- What `predict` returns for row probabilities `P`: the row probabilities, and per observation (in order
of first appearance) the probability of the rows marked as chosen. -/
noncomputable def predictedParts (df : Frame ℝ) (obsCol : String) (P : Fin df.numRows → ℝ)
    (choiceCol : Option String) (returnLong : Bool) :
    ProbResult (Fin df.numRows) (Fin (originalOrderUniqueIds (df.colList obsCol)).length) Unit :=
  let chosen (c : String) := fun (o : Fin (originalOrderUniqueIds (df.colList obsCol)).length) (_ : Unit) =>
    ∑ r with df.val obsCol r = (originalOrderUniqueIds (df.colList obsCol)).get o, df.val c r * P r
  match choiceCol, returnLong with
  | none, _ => .long fun r _ => P r
  | some c, true => .both (chosen c) fun r _ => P r
  | some c, false => .chosen (chosen c)

end Pylogit.Spec
