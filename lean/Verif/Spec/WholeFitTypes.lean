import Verif.Spec.WholeFit
import Verif.Spec.Params
import Verif.Model.WholeFitTypes

/-!
# Specification vocabulary for whole fits of models with outside intercepts or shapes
-/

namespace Pylogit.Spec

/-- `U` gives the utilities of the rows as the model documents them, for the vector of all parameters: first the
shapes (none for the multinomial and the clog-log model), then the outside intercepts (none without a reference
position, or with one alternative), then one coefficient per described column. -/
def DocumentedUtilities (m : ChoiceModel ℝ) (alts : List ℝ) (cols : List (ColDesc ℝ)) {n : ℕ}
    (U : (Fin n → ℝ) → Fin m.data.numRows → ℝ) : Prop :=
  ∀ θ : Fin n → ℝ, ∃ (p : ParamArrays) (q : AltParams),
    HoldsFor m.cls alts m.args.interceptRefPos m.args.shapeRefPos p q ∧
    (p.shapes = none ↔ m.cls = .mnl ∨ m.cls = .cloglog) ∧
    (p.intercepts = none ↔ m.cls = .mnl ∨ m.args.interceptRefPos = .none ∨ alts.length = 1) ∧
    p.index.length = cols.length ∧
    List.ofFn θ = p.shapes.getD [] ++ (p.intercepts.getD [] ++ p.index) ∧
    ∀ r, U θ r = rowUtility m.cls alts q (m.data.val m.args.altIdCol r)
      (rowIndex m.data m.args.altIdCol cols p.index r)

/-- At `θ`, whose last entries are the index coefficients, no row is at a point where the transformation of the
model is not smooth: from 3.7 on the clog-log transformation is another one, and the asymmetric one has a kink at
zero. -/
def SmoothAt (m : ChoiceModel ℝ) (cols : List (ColDesc ℝ)) {n : ℕ} (θ : Fin n → ℝ) : Prop :=
  ∀ r, (m.cls = .cloglog →
      rowIndex m.data m.args.altIdCol cols ((List.ofFn θ).drop (n - cols.length)) r < 3.7) ∧
    (m.cls = .asym → rowIndex m.data m.args.altIdCol cols ((List.ofFn θ).drop (n - cols.length)) r ≠ 0)

/-- The labels of `k` parameters of one kind: the names given, or numbered ones. -/
def partLabels (given : Option (List String)) (pre : String) (k : ℕ) : List String :=
  if k = 0 then [] else given.getD ((List.range k).map fun i => pre ++ toString (i + 1))

/-- The labels of all parameters: those of the shapes, of the outside intercepts, and of the described columns. -/
def parameterLabels (label : PyVal ℝ → String) (m : ChoiceModel ℝ) (numAlts : ℕ) : List String :=
  partLabels m.args.shapeNames "Shape_" (shapeCount m.cls numAlts) ++
    (partLabels m.args.interceptNames "Outside_ASC_"
      (interceptCount m.cls numAlts (m.args.interceptRefPos != .none)) ++ m.indVarNames.map label)

end Pylogit.Spec
