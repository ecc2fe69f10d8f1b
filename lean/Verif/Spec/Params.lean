import Verif.Model.Params

/-!
# Specification vocabulary for parameter vectors

How many parameters of each kind a model documents, and the order in which the estimators lay
them out.
-/

namespace Pylogit.Spec

variable {V : Type}

/-- Parameters of one model, by kind. -/
structure Groups (V : Type) where
  nests : List V
  shapes : List V
  intercepts : List V
  index : List V

/-- Estimator order: nest, shape, intercept, index. -/
def Groups.flat (g : Groups V) : List V := g.nests ++ g.shapes ++ g.intercepts ++ g.index

/-- Models with shape parameters. -/
def HasShapes : ModelType → Prop
  | .asym | .scobit | .uneven => True
  | _ => False

/-- The number of shape parameters: one per alternative, one less for the asymmetric model. -/
def shapeCount (m : ModelType) (numAlts : ℕ) : ℕ :=
  match m with
  | .asym => numAlts - 1
  | .scobit | .uneven => numAlts
  | _ => 0

/-- The number of outside intercepts: one per alternative but one, when they are used. -/
def interceptCount (m : ModelType) (numAlts : ℕ) (outside : Bool) : ℕ :=
  match m with
  | .asym | .cloglog | .scobit | .uneven => if outside then numAlts - 1 else 0
  | _ => 0

/-- The groups have the documented sizes: one nest parameter per nest, the shapes, one outside
intercept per alternative but one if outside intercepts are used, one coefficient per design
column and one standard deviation per mixing variable. -/
structure Sized (m : ModelType) (d : Dims) (outside : Bool) (g : Groups V) : Prop where
  nests : g.nests.length = if m = .nested then d.numNests else 0
  shapes : g.shapes.length = shapeCount m d.numAlts
  intercepts : g.intercepts.length = interceptCount m d.numAlts outside
  index : g.index.length = d.numIndex + if m = .mixed then d.numMixing else 0

/-- The documented total number of parameters. -/
def totalParams (m : ModelType) (d : Dims) (outside : Bool) : ℕ :=
  match m with
  | .mnl => d.numIndex
  | .asym => (d.numAlts - 1) + (if outside then d.numAlts - 1 else 0) + d.numIndex
  | .cloglog => (if outside then d.numAlts - 1 else 0) + d.numIndex
  | .scobit | .uneven => d.numAlts + (if outside then d.numAlts - 1 else 0) + d.numIndex
  | .nested => d.numNests + d.numIndex
  | .mixed => d.numIndex + d.numMixing

/-- The starting values named by the arguments of `fit_mle`: either one vector, or (in the models
that have such groups) the groups given by keyword, in estimator order and of the documented sizes.
The multinomial, nested and mixed models take no groups, not even `None` ones; the clog-log model
takes no shapes, not even `None`. -/
inductive StartsFrom : ModelType → Dims → InitArgs V → List V → Prop
  | plain (m : ModelType) (d : Dims) (x : List V) (hm : m = .mnl ∨ m = .nested ∨ m = .mixed) :
      StartsFrom m d ⟨some x, none, none, none⟩ x
  | clogVector (d : Dims) (x : List V) (c b : Option (Option (List V))) :
      StartsFrom .cloglog d ⟨some x, none, c, b⟩ x
  | clogGroups (d : Dims) (c : Option (Option (List V))) (b : List V)
      (hb : b.length = d.numIndex) (hc : ∀ i, c = some (some i) → i.length = d.numAlts - 1) :
      StartsFrom .cloglog d ⟨none, none, c, some (some b)⟩ (c.join.getD [] ++ b)
  | shapeVector (m : ModelType) (d : Dims) (x : List V) (s c b : Option (Option (List V)))
      (hm : HasShapes m) : StartsFrom m d ⟨some x, s, c, b⟩ x
  | shapeGroups (m : ModelType) (d : Dims) (s : List V) (c : Option (Option (List V))) (b : List V)
      (hm : HasShapes m) (hs : s.length = shapeCount m d.numAlts) (hb : b.length = d.numIndex)
      (hc : ∀ i, c = some (some i) → i.length = d.numAlts - 1) :
      StartsFrom m d ⟨none, some (some s), c, some (some b)⟩ (s ++ c.join.getD [] ++ b)

/-- The pieces returned by a split, `None` read as no parameters. -/
def groupsOf (s : SplitParams V) : Groups V :=
  ⟨s.nests.getD [], s.shapes.getD [], s.intercepts.getD [], s.index⟩

end Pylogit.Spec
