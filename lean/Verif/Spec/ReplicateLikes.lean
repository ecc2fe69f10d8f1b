import Verif.Model.ReplicateLikes
import Verif.Spec.Predict
import Verif.Spec.Params
import Verif.Spec.Bootstrap

/-! # Specification vocabulary for the log-likelihoods of replicates -/

open Finset

namespace Pylogit.Spec

/-- One column of two-dimensional parameter arrays: the parameters of one replicate. -/
def column {d : ℕ} (p : ParamArraysOf (Fin d → ℝ)) (e : Fin d) : ParamArrays where
  index := p.index.map fun x => x e
  intercepts := p.intercepts.map fun l => l.map fun x => x e
  shapes := p.shapes.map fun l => l.map fun x => x e
  nests := p.nests.map fun l => l.map fun x => x e

/-- The parameter arrays made of the groups of parameters of the replicates. -/
def groupArrays {W : Type} (g : Groups W) : ParamArraysOf W :=
  ⟨g.index, orNone g.intercepts, orNone g.shapes, orNone g.nests⟩

/-- Each parameter has a name of its kind. -/
structure ReplicatesFor {W : Type} (m : ChoiceModel ℝ) (g : Groups W) : Prop where
  nests : g.nests.length = nameCount m.args.nestSpec
  shapes : g.shapes.length = nameCount m.args.shapeNames
  intercepts : g.intercepts.length = nameCount m.args.interceptNames
  index : g.index.length = m.indVarNames.length

/-- The choice column marks exactly one row of each observation. -/
structure MarksChoices (df : Frame ℝ) (obsCol choiceCol : String) : Prop where
  zeroOne : ∀ r, df.val choiceCol r = 0 ∨ df.val choiceCol r = 1
  one : ∀ r, ∃! s, df.val obsCol s = df.val obsCol r ∧ df.val choiceCol s = 1

/-- The log-likelihood of the choices in a table, for row probabilities `P`. -/
noncomputable def dataLogLik (df : Frame ℝ) (choiceCol : String) (P : Fin df.numRows → ℝ) : ℝ :=
  ∑ r, df.val choiceCol r * Real.log (P r)

/-- When the transformation of a model with two-dimensional arrays treats each column as a replicate: `d`
replicates, `n` rows. -/
def ColumnwiseFor (cls : ModelType) (hasIcpt : Prop) (d n : ℕ) : Prop :=
  match cls with
  | .cloglog | .uneven => 2 ≤ d ∨ ¬ hasIcpt
  | .asym => 2 ≤ d
  | .scobit => (hasIcpt ∧ 2 ≤ d) ∨ (¬ hasIcpt ∧ d = n)
  | _ => True

/-- What prediction needs of the model and its table: named columns, a valid specification that has at least
one column, and one name per column. -/
structure Predictable (m : ChoiceModel ℝ) (df : Frame ℝ) (s : List (String × SpecVal ℝ)) (alts : List ℝ) :
    Prop where
  spec : m.args.specification = s.map fun kv => (kv.1, kv.2.encode)
  names : m.args.names = none
  noMix : m.args.mixingIdCol = none
  isAlts : AltsOf df m.args.altIdCol alts
  altCol : m.args.altIdCol ∈ df.columns
  obsCol : m.args.obsIdCol ∈ df.columns
  choiceCol : m.args.choiceCol ∈ df.columns
  vars : ∀ kv ∈ s, kv.1 ∈ df.columns
  valid : ∀ kv ∈ s, kv.2.ValidFor alts
  nonempty : specColumns alts s ≠ []
  count : m.indVarNames.length = (specColumns alts s).length

end Pylogit.Spec
