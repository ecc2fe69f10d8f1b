import Verif.Spec.Params
import Verif.Model.Results

/-!
# Specification vocabulary for the estimation of replicates
-/

namespace Pylogit.Spec

variable {W : Type}

/-- An absent group of parameters is `None`. -/
def orNone (l : List W) : Option (List W) := if l = [] then none else some l

/-- The groups have one parameter per name. -/
structure NamedSizes (a : NameAttrs) (g : Groups W) : Prop where
  nests : g.nests.length = (a.nestNames.getD []).length
  shapes : g.shapes.length = (a.shapeNames.getD []).length
  intercepts : g.intercepts.length = (a.interceptNames.getD []).length
  index : g.index.length = a.indVarNames.length

/-- The entry of a labelled series under a label. -/
def ValueAt (s : Series W) (name : String) (x : W) : Prop :=
  ∃ i : ℕ, s.index[i]? = some name ∧ s.values[i]? = some x

end Pylogit.Spec
