import Verif.Model.FitStore

/-!
# Specification vocabulary for stored results
-/

namespace Pylogit.Spec

/-- The results of a fit suit the names of a model: as many labels as parameters of each kind, a
gradient and Hessian of that size, an invertible Hessian, and constraints that name existing
parameters. -/
structure Storable (a : NameAttrs) (r : FitResults) : Prop where
  nests : ∀ p g, r.split.nests = some p → a.nestNames = some g → g.length = p.length
  shapes : ∀ p g, r.split.shapes = some p → a.shapeNames = some g → g.length = p.length
  intercepts : ∀ p g, r.split.intercepts = some p → a.interceptNames = some g →
    g.length = p.length
  index : (addMixingNames a).indVarNames.length = r.split.index.length
  size : r.n = (r.split.nests.getD []).length + ((r.split.shapes.getD []).length +
    ((r.split.intercepts.getD []).length + r.split.index.length))
  regular : IsUnit r.hessian.det
  constraints : ∀ cs, r.constrained = some cs → ∀ pos ∈ cs, -(r.n : ℤ) ≤ pos ∧ pos < r.n

end Pylogit.Spec
