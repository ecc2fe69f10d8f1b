import Verif.Model.Design

/-!
# Specification vocabulary for design matrices

A column of a design matrix is described by the variable and the rows on which the variable is
switched on.
-/

namespace Pylogit.Spec

variable {V : Type} [LinearOrder V]

/-- A well-formed specification value, with its meaning. -/
inductive SpecVal (V : Type) where
  | allSame
  | allDiff
  | groups (l : List (V ⊕ List V))

/-- A group as the Python object the user writes: an id or a list of ids. -/
def encodeGroup : V ⊕ List V → PyVal V
  | .inl a => .num a
  | .inr l => .list (l.map .num)

/-- The Python object the user writes. -/
def SpecVal.encode : SpecVal V → PyVal V
  | .allSame => .str "all_same"
  | .allDiff => .str "all_diff"
  | .groups l => .list (l.map encodeGroup)

/-- The ids a group mentions. -/
def groupIds : V ⊕ List V → List V
  | .inl a => [a]
  | .inr l => l

/-- Every id mentioned is an alternative. -/
def SpecVal.ValidFor (alts : List V) : SpecVal V → Prop
  | .groups l => ∀ g ∈ l, ∀ a ∈ groupIds g, a ∈ alts
  | _ => True

/-- What a design column is about. -/
inductive ColDesc (V : Type) where
  | same (var : String)
  | alt (var : String) (a : V)
  | group (var : String) (l : List V)

/-- The columns a specification entry asks for. -/
def SpecVal.columns (alts : List V) (var : String) : SpecVal V → List (ColDesc V)
  | .allSame => [.same var]
  | .allDiff => alts.map (.alt var)
  | .groups l => l.map fun
    | .inl a => .alt var a
    | .inr g => .group var g

/-- The value of a described column on a row. -/
def ColDesc.value [Zero V] (df : Frame V) (altCol : String) : ColDesc V → Fin df.numRows → V
  | .same v, r => df.val v r
  | .alt v a, r => if df.val altCol r = a then df.val v r else 0
  | .group v l, r => if df.val altCol r ∈ l then df.val v r else 0

/-- The default name of a described column. -/
def ColDesc.name (fmt : V → String) (fmtList : List (PyVal V) → String) : ColDesc V → String
  | .same v => v
  | .alt v a => v ++ "_" ++ fmt a
  | .group v l => v ++ "_" ++ fmtList (l.map .num)

/-- `alts` lists the alternatives of the table in ascending order. -/
structure AltsOf (df : Frame V) (altCol : String) (alts : List V) : Prop where
  ascending : alts.Pairwise (· < ·)
  mem : ∀ a, a ∈ alts ↔ ∃ r, df.val altCol r = a

/-- C08's notion of a well-formed specification value. -/
def WellFormed (alts : List V) (v : PyVal V) : Prop :=
  v = .str "all_same" ∨ v = .str "all_diff" ∨
    ∃ gs, v = .list gs ∧ ∀ g ∈ gs, (∃ a ∈ alts, g = .num a) ∨
      ∃ l : List V, (∀ a ∈ l, a ∈ alts) ∧ g = .list (l.map .num)

end Pylogit.Spec
