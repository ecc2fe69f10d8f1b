import Mathlib.Data.List.Basic
import Mathlib.Tactic
import Verif.Spec.Params

/-!
# Parameter vectors (C48, C49)
-/

namespace Pylogit

open Spec

variable {V : Type}

/-! ## C48 -/

private lemma lastSlice_append (a b : List V) (hb : 0 < b.length) :
    lastSlice b.length (a ++ b) = b := by
  have : b.length ≠ 0 := by omega
  simp [lastSlice, this]

private lemma splitShapes_append (s c b : List V) (hb : 0 < b.length) :
    splitShapes s.length b.length (s ++ c ++ b)
      = ⟨none, some s, if c = [] then none else some c, b⟩ := by
  have h1 : lastSlice b.length (s ++ c ++ b) = b := lastSlice_append (s ++ c) b hb
  have h2 : (s ++ c ++ b).length - (s.length + b.length) = c.length := by
    simp only [List.length_append]; omega
  simp only [splitShapes, h1, h2, SplitParams.mk.injEq, Option.some.injEq, true_and, and_true]
  refine ⟨by simp, ?_⟩
  by_cases hc : c = []
  · simp [hc]
  · have : c.length > 0 := List.length_pos_iff.mpr hc
    simp [hc, this, midSlice]

private lemma splitClog_append (c b : List V) (hb : 0 < b.length) :
    splitClog b.length (c ++ b) = ⟨none, none, if c = [] then none else some c, b⟩ := by
  have h1 : lastSlice b.length (c ++ b) = b := lastSlice_append c b hb
  have h2 : (c ++ b).length - b.length = c.length := by simp
  simp only [splitClog, h1, h2, SplitParams.mk.injEq, and_true, true_and]
  by_cases hc : c = []
  · simp [hc]
  · have : c.length > 0 := List.length_pos_iff.mpr hc
    simp [hc, this]

/-- C48, first half.  Splitting the concatenation of the parameter groups, in estimator order,
gives the groups back, with `None` for the kinds the model does not have. -/
theorem split_concat (m : ModelType) (d : Dims) (outside : Bool) (g : Groups V)
    (hg : Sized m d outside g) (hn : 0 < d.numIndex) :
    (splitParamVec m d g.flat).nests = (if m = .nested then some g.nests else none) ∧
    ((HasShapes m → (splitParamVec m d g.flat).shapes = some g.shapes) ∧
      (¬ HasShapes m → (splitParamVec m d g.flat).shapes = none)) ∧
    (splitParamVec m d g.flat).intercepts
      = (if g.intercepts = [] then none else some g.intercepts) ∧
    (splitParamVec m d g.flat).index = g.index := by
  obtain ⟨nests, shapes, icpts, index⟩ := g
  obtain ⟨h1, h2, h4, h5⟩ := hg
  cases m <;> simp only [shapeCount, interceptCount, HasShapes, reduceCtorEq, if_false, if_true,
    Groups.flat, splitParamVec, add_zero, not_true_eq_false,
    not_false_eq_true] at *
  case mnl =>
    simp [List.length_eq_zero_iff.mp h1, List.length_eq_zero_iff.mp h2, List.length_eq_zero_iff.mp h4]
  case asym =>
    rw [← h2, ← h5, List.length_eq_zero_iff.mp h1, List.nil_append, splitShapes_append _ _ _ (by omega)]
    simp
  case cloglog =>
    rw [← h5, List.length_eq_zero_iff.mp h1, List.length_eq_zero_iff.mp h2, List.nil_append,
      List.nil_append, splitClog_append _ _ (by omega)]
    simp
  case scobit =>
    rw [← h2, ← h5, List.length_eq_zero_iff.mp h1, List.nil_append, splitShapes_append _ _ _ (by omega)]
    simp
  case uneven =>
    rw [← h2, ← h5, List.length_eq_zero_iff.mp h1, List.nil_append, splitShapes_append _ _ _ (by omega)]
    simp
  case nested =>
    simp [splitNested, ← h1, List.length_eq_zero_iff.mp h2, List.length_eq_zero_iff.mp h4]
  case mixed =>
    simp [List.length_eq_zero_iff.mp h1, List.length_eq_zero_iff.mp h2, List.length_eq_zero_iff.mp h4]

/-- A vector accepted by the length check is the concatenation of groups of the documented
sizes. -/
theorem exists_groups_of_check (m : ModelType) (d : Dims) (outside : Bool) (x : List V)
    (hA : 0 < d.numAlts) (hx : checkInitLength m d outside x = .ok ()) :
    ∃ g : Groups V, Sized m d outside g ∧ g.flat = x := by
  have hlen : x.length = assumedParamDimensions m d outside := by
    by_contra h
    simp [checkInitLength, h] at hx
  have key : ∀ n s c : ℕ, n + s + c ≤ x.length →
      ((x.take n) ++ ((x.drop n).take s) ++ ((x.drop (n + s)).take c) ++ x.drop (n + s + c)) = x := by
    intro n s c _
    rw [show x.drop (n + s) = (x.drop n).drop s by simp,
      show x.drop (n + s + c) = ((x.drop n).drop s).drop c by simp,
      List.append_assoc, List.take_append_drop, List.append_assoc, List.take_append_drop,
      List.take_append_drop]
  refine ⟨⟨x.take (if m = .nested then d.numNests else 0),
    (x.drop (if m = .nested then d.numNests else 0)).take (shapeCount m d.numAlts),
    (x.drop ((if m = .nested then d.numNests else 0) + shapeCount m d.numAlts)).take
      (interceptCount m d.numAlts outside),
    x.drop ((if m = .nested then d.numNests else 0) + shapeCount m d.numAlts +
      (interceptCount m d.numAlts outside))⟩, ?_, key _ _ _ ?_⟩
  · constructor
    · cases m <;> cases outside <;> simp [assumedParamDimensions] at hlen ⊢ <;> omega
    · cases m <;> cases outside <;>
        simp [assumedParamDimensions, shapeCount] at hlen ⊢ <;> omega
    · cases m <;> cases outside <;>
        simp [assumedParamDimensions, shapeCount, interceptCount] at hlen ⊢ <;> omega
    · cases m <;> cases outside <;>
        simp [assumedParamDimensions, shapeCount, interceptCount] at hlen ⊢ <;> omega
  · cases m <;> cases outside <;>
      simp [assumedParamDimensions, shapeCount, interceptCount] at hlen ⊢ <;> omega

/-- C48, second half.  For a vector accepted by the length check, the pieces have the documented
sizes and their concatenation is the vector. -/
theorem concat_split (m : ModelType) (d : Dims) (outside : Bool) (x : List V)
    (hn : 0 < d.numIndex) (hA : 0 < d.numAlts) (hx : checkInitLength m d outside x = .ok ()) :
    Sized m d outside (groupsOf (splitParamVec m d x)) ∧
    (groupsOf (splitParamVec m d x)).flat = x := by
  obtain ⟨g, hg, rfl⟩ := exists_groups_of_check m d outside x hA hx
  obtain ⟨h1, ⟨h2, h2'⟩, h3, h4⟩ := split_concat m d outside g hg hn
  have e : groupsOf (splitParamVec m d g.flat) = g := by
    obtain ⟨nests, shapes, icpts, index⟩ := g
    simp only [groupsOf, Groups.mk.injEq]
    refine ⟨?_, ?_, ?_, h4⟩
    · rw [h1]
      by_cases hm : m = .nested
      · simp [hm]
      · have := hg.nests
        simp only [hm, if_false] at this
        simp [hm, List.length_eq_zero_iff.mp this]
    · by_cases hs : HasShapes m
      · rw [h2 hs]; rfl
      · rw [h2' hs]
        have := hg.shapes
        have h0 : shapeCount m d.numAlts = 0 := by
          cases m <;> simp [HasShapes, shapeCount] at hs ⊢
        rw [h0] at this
        simpa using (List.length_eq_zero_iff.mp this).symm
    · rw [h3]
      by_cases hi : icpts = [] <;> simp [hi]
  rw [e]
  exact ⟨hg, rfl⟩

/-- Without the requirement of at least one design column the split is wrong: `x[-0:]` is all of
`x`.  (A model always has a design column.) -/
theorem split_zero_index : splitParamVec .scobit ⟨2, 0, 0, 0⟩ [5, 6]
    = ⟨none, some [5, 6], none, [5, 6]⟩ := by decide

/-- Non-vacuity: a scobit vector for 3 alternatives, 2 outside intercepts, 2 coefficients. -/
example : Sized .scobit ⟨3, 2, 0, 0⟩ true (⟨[], [1, 2, 3], [4, 5], [6, 7]⟩ : Groups ℕ) ∧
    checkInitLength .scobit ⟨3, 2, 0, 0⟩ true [1, 2, 3, 4, 5, 6, 7] = .ok () ∧
    splitParamVec .scobit ⟨3, 2, 0, 0⟩ [1, 2, 3, 4, 5, 6, 7]
      = ⟨none, some [1, 2, 3], some [4, 5], [6, 7]⟩ := by
  refine ⟨⟨?_, ?_, ?_, ?_⟩, rfl, by decide⟩ <;>
    simp [shapeCount, interceptCount]

/-! ## C49 -/

/-- C49.  The length check accepts exactly the vectors with the documented number of entries, and
fails with a `ValueError` otherwise. -/
theorem checkInitLength_iff (m : ModelType) (d : Dims) (outside : Bool) (x : List V)
    (hA : 0 < d.numAlts) :
    (checkInitLength m d outside x = .ok () ↔ x.length = totalParams m d outside) ∧
    (checkInitLength m d outside x = .error .valueError ↔ x.length ≠ totalParams m d outside) := by
  have h : assumedParamDimensions m d outside = totalParams m d outside := by
    cases m <;> cases outside <;> simp [assumedParamDimensions, totalParams] <;> omega
  simp only [checkInitLength, h]
  by_cases hx : x.length = totalParams m d outside <;> simp [hx]

/-- Equivalently, it accepts exactly the concatenations of groups of the documented sizes. -/
theorem checkInitLength_iff_sized (m : ModelType) (d : Dims) (outside : Bool) (x : List V)
    (hA : 0 < d.numAlts) :
    checkInitLength m d outside x = .ok () ↔
      ∃ g : Groups V, Sized m d outside g ∧ g.flat = x := by
  constructor
  · exact exists_groups_of_check m d outside x hA
  · rintro ⟨g, hg, rfl⟩
    rw [(checkInitLength_iff m d outside _ hA).1]
    obtain ⟨nests, shapes, icpts, index⟩ := g
    obtain ⟨h1, h2, h3, h5⟩ := hg
    cases m <;> cases outside <;>
      simp_all [shapeCount, interceptCount, Groups.flat, totalParams] <;> omega

/-- `fit_mle` never starts an estimation from a vector of the wrong size, however the starting
values are supplied. -/
theorem fitInitVals_sound (m : ModelType) (d : Dims) (outside : Bool) (a : InitArgs V) (x : List V)
    (h : fitInitVals m d outside a = .ok x) : checkInitLength m d outside x = .ok () := by
  simp only [fitInitVals, bind, Except.bind] at h
  cases hr : rawInitVals m d a with
  | error e => simp [hr] at h
  | ok y =>
    cases hc : checkInitLength m d outside y with
    | error e => simp [hr, hc] at h
    | ok u =>
      simp only [hr, hc, pure, Except.pure, Except.ok.injEq] at h
      subst h
      exact hc

/-- Starting values passed as one vector of the right length are used unchanged. -/
theorem fitInitVals_vals (m : ModelType) (d : Dims) (outside : Bool) (x : List V)
    (hx : checkInitLength m d outside x = .ok ()) :
    fitInitVals m d outside ⟨some x, none, none, none⟩ = .ok x := by
  cases m <;> simp [fitInitVals, rawInitVals, initPlain, initShapesModel, initClog, bind, Except.bind, hx,
    pure, Except.pure]

private lemma initShapes_none (k : ℕ) (d : Dims) (s b : List V) :
    initShapesModel k d ⟨none, some (some s), some none, some (some b)⟩
      = if s.length ≠ k then .error .valueError
        else if b.length ≠ d.numIndex then .error .valueError else .ok (s ++ b) := rfl

private lemma initShapes_some (k : ℕ) (d : Dims) (s c b : List V) :
    initShapesModel k d ⟨none, some (some s), some (some c), some (some b)⟩
      = if s.length ≠ k then .error .valueError
        else if b.length ≠ d.numIndex then .error .valueError
        else if c.length ≠ d.numAlts - 1 then .error .valueError else .ok (s ++ c ++ b) := rfl

/-- Starting values passed by group (shapes, intercepts, coefficients) to a model with shapes are
concatenated in estimator order, and the estimator's split returns those groups. Mis-sized groups
are rejected with a `ValueError`. -/
theorem fitInitVals_groups (m : ModelType) (d : Dims) (hm : HasShapes m) (hn : 0 < d.numIndex)
    (hA : 0 < d.numAlts) (s b : List V) (c : Option (List V)) :
    (s.length = shapeCount m d.numAlts ∧ b.length = d.numIndex ∧
        (∀ c', c = some c' → c'.length = d.numAlts - 1) →
      fitInitVals m d c.isSome ⟨none, some (some s), some c, some (some b)⟩
          = .ok (s ++ c.getD [] ++ b) ∧
      splitParamVec m d (s ++ c.getD [] ++ b)
          = ⟨none, some s, if c.getD [] = [] then none else c, b⟩) ∧
    (¬ (s.length = shapeCount m d.numAlts ∧ b.length = d.numIndex ∧
        (∀ c', c = some c' → c'.length = d.numAlts - 1)) →
      fitInitVals m d c.isSome ⟨none, some (some s), some c, some (some b)⟩
          = .error .valueError) := by
  constructor
  · rintro ⟨h1, h2, h3⟩
    constructor
    · have hck : checkInitLength m d c.isSome (s ++ c.getD [] ++ b) = .ok () := by
        rw [(checkInitLength_iff m d _ _ hA).1]
        cases c with
        | none => cases m <;> simp [HasShapes, totalParams, shapeCount, h1, h2] at hm ⊢
        | some c =>
          have h3' := h3 c rfl
          cases m <;> simp [HasShapes, totalParams, shapeCount, h1, h2, h3'] at hm ⊢ <;> omega
      have e : initShapesModel (shapeCount m d.numAlts) d ⟨none, some (some s), some c, some (some b)⟩
          = .ok (s ++ c.getD [] ++ b) := by
        cases c with
        | none => rw [initShapes_none]; simp [h1, h2]
        | some c => rw [initShapes_some]; simp [h1, h2, h3 c rfl]
      cases m <;> simp only [HasShapes] at hm <;> simp only [shapeCount] at e <;>
        simp only [fitInitVals, rawInitVals, e, bind, Except.bind, hck, pure, Except.pure]
    · have hb : 0 < b.length := by omega
      have := splitShapes_append s (c.getD []) b hb
      have e : splitParamVec m d (s ++ c.getD [] ++ b)
          = splitShapes s.length b.length (s ++ c.getD [] ++ b) := by
        cases m <;> simp_all [HasShapes, splitParamVec, shapeCount]
      rw [e, this]
      cases c <;> simp
  · intro h
    cases c with
    | none =>
      have : ¬ (s.length = shapeCount m d.numAlts ∧ b.length = d.numIndex) := by
        intro h'; exact h ⟨h'.1, h'.2, by simp⟩
      have e : ∀ k, ¬ (s.length = k ∧ b.length = d.numIndex) →
          initShapesModel k d ⟨none, some (some s), some none, some (some b)⟩
            = .error .valueError := by
        intro k hk
        rw [initShapes_none]
        split_ifs with h1 h2 <;> first | rfl | (exfalso; tauto)
      cases m <;> simp only [HasShapes] at hm <;> simp only [shapeCount] at this <;>
        simp [fitInitVals, rawInitVals, e _ this, bind, Except.bind]
    | some c =>
      have : ¬ (s.length = shapeCount m d.numAlts ∧ b.length = d.numIndex
          ∧ c.length = d.numAlts - 1) := by
        intro h'; exact h ⟨h'.1, h'.2.1, by simpa using h'.2.2⟩
      have e : ∀ k, ¬ (s.length = k ∧ b.length = d.numIndex ∧ c.length = d.numAlts - 1) →
          initShapesModel k d ⟨none, some (some s), some (some c), some (some b)⟩
            = .error .valueError := by
        intro k hk
        rw [initShapes_some]
        split_ifs with h1 h2 h3 <;> first | rfl | (exfalso; tauto)
      cases m <;> simp only [HasShapes] at hm <;> simp only [shapeCount] at this <;>
        simp [fitInitVals, rawInitVals, e _ this, bind, Except.bind]

private lemma initPlain_ok {a : InitArgs V} {x : List V} :
    initPlain a = .ok x ↔ a = ⟨some x, none, none, none⟩ := by
  obtain ⟨v, s, c, b⟩ := a
  cases v <;> cases s <;> cases c <;> cases b <;> simp [initPlain]

private lemma initClog_ok {d : Dims} {a : InitArgs V} {x : List V} :
    initClog d a = .ok x ↔ StartsFrom .cloglog d a x := by
  constructor
  · intro h
    obtain ⟨v, s, c, b⟩ := a
    unfold initClog at h
    cases s with
    | some s => simp at h
    | none =>
      cases v with
      | some v =>
        simp at h
        subst h
        exact .clogVector d v c b
      | none =>
        rcases b with _ | _ | b
        · simp at h
        · simp at h
        · by_cases hb : b.length = d.numIndex
          · rcases c with _ | _ | c
            · simp [hb] at h
              subst h
              exact .clogGroups d none b hb (by simp)
            · simp [hb] at h
              subst h
              exact .clogGroups d (some none) b hb (by simp)
            · by_cases hc : c.length = d.numAlts - 1
              · simp [hb, hc] at h
                subst h
                exact .clogGroups d (some (some c)) b hb (by simpa using hc)
              · simp [hb, hc] at h
          · simp [hb] at h
  · intro h
    cases h with
    | plain _ _ _ hm => simp at hm
    | clogVector => simp [initClog]
    | clogGroups _ c b hb hc =>
      rcases c with _ | _ | c
      · simp [initClog, hb]
      · simp [initClog, hb]
      · simp [initClog, hb, hc c rfl]
    | shapeVector _ _ _ _ _ _ hm => exact hm.elim
    | shapeGroups _ _ _ _ _ hm => exact hm.elim

private lemma initShapes_ok {m : ModelType} (hm : HasShapes m) {d : Dims} {a : InitArgs V}
    {x : List V} :
    initShapesModel (shapeCount m d.numAlts) d a = .ok x ↔ StartsFrom m d a x := by
  constructor
  · intro h
    obtain ⟨v, s, c, b⟩ := a
    unfold initShapesModel at h
    cases v with
    | some v =>
      simp at h
      subst h
      exact .shapeVector m d v s c b hm
    | none =>
      rcases s with _ | _ | s
      · simp at h
      · simp at h
      · rcases b with _ | _ | b
        · simp at h
        · simp at h
        · by_cases hs : s.length = shapeCount m d.numAlts
          · by_cases hb : b.length = d.numIndex
            · rcases c with _ | _ | c
              · simp [hs, hb] at h
                subst h
                simpa using StartsFrom.shapeGroups m d s none b hm hs hb (by simp)
              · simp [hs, hb] at h
                subst h
                simpa using StartsFrom.shapeGroups m d s (some none) b hm hs hb (by simp)
              · by_cases hc : c.length = d.numAlts - 1
                · simp [hs, hb, hc] at h
                  subst h
                  simpa using
                    StartsFrom.shapeGroups m d s (some (some c)) b hm hs hb (by simpa using hc)
                · simp [hs, hb, hc] at h
            · simp [hs, hb] at h
          · simp [hs] at h
  · intro h
    cases h with
    | plain _ _ _ hm' => rcases hm' with rfl | rfl | rfl <;> exact hm.elim
    | clogVector => exact hm.elim
    | clogGroups => exact hm.elim
    | shapeVector => simp [initShapesModel]
    | shapeGroups _ _ s c b _ hs hb hc =>
      rcases c with _ | _ | c
      · simp [initShapesModel, hb, hs]
      · simp [initShapesModel, hb, hs]
      · simp [initShapesModel, hb, hs, hc c rfl]

theorem rawInitVals_ok {m : ModelType} {d : Dims} {a : InitArgs V} {x : List V} :
    rawInitVals m d a = .ok x ↔ StartsFrom m d a x := by
  have hp : ∀ m, (m = .mnl ∨ m = .nested ∨ m = .mixed) →
      (initPlain a = .ok x ↔ StartsFrom m d a x) := by
    intro m hm
    rw [initPlain_ok]
    constructor
    · rintro rfl; exact .plain m d x hm
    · intro h
      cases h with
      | plain => rfl
      | clogVector => simp at hm
      | clogGroups => simp at hm
      | shapeVector _ _ _ _ _ _ h => rcases hm with rfl | rfl | rfl <;> exact h.elim
      | shapeGroups _ _ _ _ _ h => rcases hm with rfl | rfl | rfl <;> exact h.elim
  cases m
  · exact hp _ (by simp)
  · exact initShapes_ok (m := .asym) trivial
  · exact initClog_ok
  · exact initShapes_ok (m := .scobit) trivial
  · exact initShapes_ok (m := .uneven) trivial
  · exact hp _ (by simp)
  · exact hp _ (by simp)

/-- C49.  Estimation starts from `x` exactly when the arguments name `x` and `x` has the documented
number of entries; in every other case `fit_mle` raises.  The error is a `ValueError`, except that a
multinomial, nested or mixed model given no starting values at all raises an `AttributeError`. -/
theorem fitInitVals_iff (m : ModelType) (d : Dims) (outside : Bool) (a : InitArgs V)
    (hA : 0 < d.numAlts) :
    (∀ x, fitInitVals m d outside a = .ok x ↔
      StartsFrom m d a x ∧ x.length = totalParams m d outside) ∧
    (∀ e, fitInitVals m d outside a = .error e →
      (e = .attributeError ∧ (m = .mnl ∨ m = .nested ∨ m = .mixed) ∧ a = ⟨none, none, none, none⟩) ∨
      (e = .valueError ∧
        ¬ ((m = .mnl ∨ m = .nested ∨ m = .mixed) ∧ a = ⟨none, none, none, none⟩))) := by
  constructor
  · intro x
    rw [← rawInitVals_ok, ← (checkInitLength_iff m d outside x hA).1]
    constructor
    · intro h
      refine ⟨?_, fitInitVals_sound m d outside a x h⟩
      simp only [fitInitVals, bind, Except.bind] at h
      cases hr : rawInitVals m d a with
      | error e => simp [hr] at h
      | ok y =>
        cases hc : checkInitLength m d outside y with
        | error e => simp [hr, hc] at h
        | ok u =>
          simp only [hr, hc, pure, Except.pure, Except.ok.injEq] at h
          rw [h]
    · rintro ⟨h1, h2⟩
      simp [fitInitVals, bind, Except.bind, h1, h2, pure, Except.pure]
  · intro e h
    simp only [fitInitVals, bind, Except.bind] at h
    cases hr : rawInitVals m d a with
    | ok y =>
      refine Or.inr ⟨?_, ?_⟩
      · cases hc : checkInitLength m d outside y with
        | ok u => simp [hr, hc, pure, Except.pure] at h
        | error e' =>
          simp only [hr, hc, Except.error.injEq] at h
          unfold checkInitLength at hc
          split_ifs at hc
          rw [← h]
          exact (Except.error.inj hc).symm
      · rintro ⟨hm, rfl⟩
        rcases hm with rfl | rfl | rfl <;> simp [rawInitVals, initPlain] at hr
    | error e' =>
      simp only [hr, Except.error.injEq] at h
      subst h
      have hp : initPlain a = .error e' →
          (e' = .attributeError ∧ a = ⟨none, none, none, none⟩) ∨
          (e' = .valueError ∧ ¬ a = ⟨none, none, none, none⟩) := by
        obtain ⟨v, s, c, b⟩ := a
        cases v <;> cases s <;> cases c <;> cases b <;> simp [initPlain] <;> exact Eq.symm
      have hs : ∀ k, initShapesModel k d a = .error e' → e' = .valueError := by
        intro k h
        unfold initShapesModel at h
        split at h
        · cases h
        · split at h
          · split_ifs at h
            · exact (Except.error.inj h).symm
            · exact (Except.error.inj h).symm
            · split at h
              · split_ifs at h
                exact (Except.error.inj h).symm
              · cases h
          · exact (Except.error.inj h).symm
      have hc : initClog d a = .error e' → e' = .valueError := by
        intro h
        unfold initClog at h
        split_ifs at h
        · exact (Except.error.inj h).symm
        · split at h
          · cases h
          · split at h
            · exact (Except.error.inj h).symm
            · split_ifs at h
              · exact (Except.error.inj h).symm
              · split at h
                · split_ifs at h
                  exact (Except.error.inj h).symm
                · cases h
      cases m <;> simp only [rawInitVals] at hr
      · simpa using hp hr
      · simpa using hs _ hr
      · simpa using hc hr
      · simpa using hs _ hr
      · simpa using hs _ hr
      · simpa using hp hr
      · simpa using hp hr

/-- Non-vacuity: a clog-log model with three alternatives and two columns, started from its
groups; a stray shape keyword is refused. -/
example : fitInitVals .cloglog ⟨3, 2, 0, 0⟩ true
      ⟨none, none, some (some [1, 2]), some (some [3, 4])⟩ = .ok [1, 2, 3, 4] ∧
    StartsFrom .cloglog ⟨3, 2, 0, 0⟩
      ⟨none, none, some (some [1, 2]), some (some [3, 4])⟩ [1, 2, 3, 4] ∧
    fitInitVals .cloglog ⟨3, 2, 0, 0⟩ true
      ⟨some [1, 2, 3, 4], some none, none, none⟩ = .error .valueError ∧
    fitInitVals (V := ℕ) .mnl ⟨3, 2, 0, 0⟩ false ⟨none, none, none, none⟩ =
      .error .attributeError :=
  ⟨by decide, .clogGroups ⟨3, 2, 0, 0⟩ (some (some [1, 2])) [3, 4] rfl (by simp), by decide,
    by decide⟩

/-- Non-vacuity: lengths for 3 alternatives, 2 nests, 1 mixing variable and 2 design columns. -/
example : [totalParams .mnl ⟨3, 2, 2, 1⟩ false, totalParams .asym ⟨3, 2, 2, 1⟩ true,
      totalParams .asym ⟨3, 2, 2, 1⟩ false, totalParams .cloglog ⟨3, 2, 2, 1⟩ true,
      totalParams .scobit ⟨3, 2, 2, 1⟩ true, totalParams .uneven ⟨3, 2, 2, 1⟩ false,
      totalParams .nested ⟨3, 2, 2, 1⟩ false, totalParams .mixed ⟨3, 2, 2, 1⟩ false]
    = [2, 6, 4, 4, 7, 5, 4, 3] := by decide

end Pylogit
