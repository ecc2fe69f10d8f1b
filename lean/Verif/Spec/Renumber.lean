import Verif.Spec.SpecOrder

/-!
# Specification vocabulary: alternatives that get other numbers
-/

namespace Pylogit.Spec

/-- The table with the numbers in column `c` replaced: `g` says by what. -/
def renumbered (df : Frame ℝ) (c : String) (g : ℝ → ℝ) : Frame ℝ where
  columns := df.columns
  numRows := df.numRows
  val := fun x r => if x = c then g (df.val x r) else df.val x r

/-- What the user writes for a variable, with the new numbers of the alternatives. -/
def SpecVal.renumber (g : ℝ → ℝ) : SpecVal ℝ → SpecVal ℝ
  | .allSame => .allSame
  | .allDiff => .allDiff
  | .groups l => .groups (l.map (Sum.map g (List.map g)))

/-- What a column is about, with the new numbers of the alternatives. -/
def ColDesc.renumber (g : ℝ → ℝ) : ColDesc ℝ → ColDesc ℝ
  | .same v => .same v
  | .alt v a => .alt v (g a)
  | .group v l => .group v (l.map g)

/-- The specification with the new numbers of the alternatives. -/
def renumberSpec (g : ℝ → ℝ) (s : List (String × SpecVal ℝ)) : List (String × SpecVal ℝ) :=
  s.map fun kv => (kv.1, kv.2.renumber g)

/-- `σ` says which columns correspond when the alternatives have new numbers. -/
def RelistsRenumbered (g : ℝ → ℝ) (l' l : List (ColDesc ℝ)) (σ : Fin l'.length ≃ Fin l.length) : Prop :=
  ∀ j, l'.get j = (l.get (σ j)).renumber g

/-- The parameters of the alternatives, by their new numbers `q'` and by their old ones `q`, are the same. -/
def SameAltParams (g : ℝ → ℝ) (alts : List ℝ) (q q' : AltParams) : Prop :=
  ∀ a ∈ alts, q'.icpt (g a) = q.icpt a ∧ q'.shape (g a) = q.shape a

/-- The columns that identify the alternative, the observation, the choice and the individual have the same names in
two sets of arguments, and the alternatives are identified by no other of these columns. -/
structure SameRoles (a a' : ModelArgs ℝ) : Prop where
  alt : a'.altIdCol = a.altIdCol
  obs : a'.obsIdCol = a.obsIdCol ∧ a.obsIdCol ≠ a.altIdCol
  choice : a'.choiceCol = a.choiceCol ∧ a.choiceCol ≠ a.altIdCol
  mixing : a'.mixingIdCol = a.mixingIdCol ∧ a.mixingIdCol ≠ some a.altIdCol

end Pylogit.Spec
