import Verif.Spec.Reference

/-!
# Specification vocabulary for the alternative whose coefficient is left out
-/

namespace Pylogit.Spec

/-- The list `l` has every alternative but `b`, once each, in any order. -/
structure AllBut (alts : List ℝ) (b : ℝ) (l : List ℝ) : Prop where
  mem : b ∈ alts
  nodup : l.Nodup
  others : ∀ a, a ∈ l ↔ a ∈ alts ∧ a ≠ b

/-- The value of a variable in a row of the caller's table; a column `intercept` that the table lacks is one of ones. -/
noncomputable def callersValue (df : Frame ℝ) (v : String) (r : Fin df.numRows) : ℝ :=
  if v = "intercept" ∧ "intercept" ∉ df.columns then 1 else df.val v r

/-- A specification with one coefficient of the variable `v` for each alternative in `l`. -/
def withCoefs (pre : List (String × SpecVal ℝ)) (v : String) (l : List ℝ) (post : List (String × SpecVal ℝ)) :
    List (String × SpecVal ℝ) :=
  pre ++ (v, .groups (l.map .inl)) :: post

/-- At the estimates in `t`, no utility of a row reaches 700 in absolute value, also not if the product of an estimate
and the variable `v` is subtracted. -/
def FarWithout (df : Frame ℝ) (altCol : String) (cols : List (ColDesc ℝ)) (v : String) (t : FitAttrs) : Prop :=
  ∀ x, t.params.map Series.values = some x → ∀ κ ∈ 0 :: x, ∀ r,
    |callersIndex df altCol cols x r - κ * callersValue df v r| < 700

end Pylogit.Spec
