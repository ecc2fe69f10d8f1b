import Verif.Spec.ParamList
import Verif.Props.PredictNested
import Verif.Model.ReplicateLikes

/-! # C76, on any object: which parameter lists `predict` takes -/

namespace Pylogit

open Spec

/-- The test `x is None or p(x.shape)` for the right types. -/
def passes (p : List ℕ → Bool) : ParamObj → Bool
  | .none => true
  | .array s => p s
  | .other => false

theorem noneOr_eq (p : List ℕ → Bool) {x : ParamObj} (h : x ≠ .other) :
    ParamObj.noneOr p x = .ok (passes p x) := by
  cases x with
  | other => exact absurd rfl h
  | _ => rfl

theorem allNoneOr_eq (p : List ℕ → Bool) {s : List ℕ} {b c d : ParamObj} (hb : b ≠ .other) (hc : c ≠ .other)
    (hd : d ≠ .other) : allNoneOr p [.array s, b, c, d] =
      .ok (p s && (passes p b && (passes p c && passes p d))) := by
  have ha : ParamObj.noneOr p (.array s) = .ok (p s) := rfl
  simp [allNoneOr, noneOr_eq p hb, noneOr_eq p hc, noneOr_eq p hd, ha, bind, Except.bind, pure,
    Except.pure]

/-- The number of rows is as given; objects without rows have the wrong number. -/
def rowsAre (n : ℕ) : List ℕ → Bool
  | [] => false
  | k :: _ => decide (k = n)

theorem checkRowsOf_eq {x : ParamObj} {n k : ℕ} (hk : 1 ≤ k)
    (h : passes (fun t => decide (t.length = k)) x = true) :
    checkRowsOf x n = if passes (rowsAre n) x then .ok () else .error .valueError := by
  cases x with
  | none => rfl
  | other => simp [passes] at h
  | array t =>
    cases t with
    | nil => simp [passes] at h; omega
    | cons a t => by_cases ha : a = n <;> simp [checkRowsOf, passes, rowsAre, ha]

/-- What a further element has to satisfy. -/
def passesAll (s : List ℕ) (n : ℕ) (x : ParamObj) : Prop :=
  passes (fun t => decide (t.length = s.length)) x = true ∧
    (s.length = 2 → passes (fun t => decide (numColumns t = numColumns s)) x = true) ∧
    passes (rowsAre n) x = true

open Classical in
theorem checkParamListArg_four {V : Type} (m : ChoiceModel V) {s : List ℕ} {b c d : ParamObj}
    (hb : b ≠ .other) (hc : c ≠ .other) (hd : d ≠ .other) :
    checkParamListArg m (.list [.array s, b, c, d]) =
      if (s.length = 1 ∨ s.length = 2) ∧ rowsAre m.indVarNames.length s = true ∧
        passesAll s (nameCount m.args.interceptNames) b ∧ passesAll s (nameCount m.args.shapeNames) c ∧
        passesAll s (nameCount m.args.nestSpec) d then .ok () else .error .valueError := by
  have hno : ∀ {x : ParamObj}, x ≠ .other → x.isNoneOrArray = true := by
    intro x hx
    cases x with
    | other => exact absurd rfl hx
    | _ => rfl
  have htypes : checkElementTypes [.array s, b, c, d] = .ok () := by
    simp [checkElementTypes, firstParam, assertOr, ParamObj.isArray, hno hb, hno hc, hno hd, bind, Except.bind]
    rfl
  have hstart : checkParamListArg m (.list [.array s, b, c, d]) = (do
      checkDimensions [.array s, b, c, d]
      if s.length = 2 then checkColumns [.array s, b, c, d] else .ok ()
      checkRowsOf (.array s) m.indVarNames.length
      checkRowsOf b (nameCount m.args.interceptNames)
      checkRowsOf c (nameCount m.args.shapeNames)
      checkRowsOf d (nameCount m.args.nestSpec)) := by
    have h1 : checkParamListArg m (.list [.array s, b, c, d]) = (do
        checkElementTypes [.array s, b, c, d]
        checkDimensions [.array s, b, c, d]
        if s.length = 2 then checkColumns [.array s, b, c, d] else .ok ()
        checkRowsOf (.array s) m.indVarNames.length
        checkRowsOf b (nameCount m.args.interceptNames)
        checkRowsOf c (nameCount m.args.shapeNames)
        checkRowsOf d (nameCount m.args.nestSpec)) := rfl
    rw [h1, htypes]
    rfl
  rw [hstart]
  have hdims : checkDimensions [.array s, b, c, d] = if (s.length = 1 ∨ s.length = 2) ∧
      passes (fun t => decide (t.length = s.length)) b = true ∧
      passes (fun t => decide (t.length = s.length)) c = true ∧
      passes (fun t => decide (t.length = s.length)) d = true then .ok () else .error .valueError := by
    simp only [checkDimensions, firstShape, firstParam, bind, Except.bind, allNoneOr_eq _ hb hc hd]
    by_cases h1 : s.length = 1 ∨ s.length = 2 <;> simp [assertOr, h1]
  have hcols : checkColumns [.array s, b, c, d] = if
      passes (fun t => decide (numColumns t = numColumns s)) b = true ∧
      passes (fun t => decide (numColumns t = numColumns s)) c = true ∧
      passes (fun t => decide (numColumns t = numColumns s)) d = true then .ok () else .error .valueError := by
    simp [checkColumns, firstShape, firstParam, bind, Except.bind, allNoneOr_eq _ hb hc hd, assertOr]
  rw [hdims]
  by_cases h1 : (s.length = 1 ∨ s.length = 2) ∧
      passes (fun t => decide (t.length = s.length)) b = true ∧
      passes (fun t => decide (t.length = s.length)) c = true ∧
      passes (fun t => decide (t.length = s.length)) d = true
  swap
  · rw [if_neg h1]
    refine Eq.trans ?_ (if_neg ?_).symm
    · rfl
    · rintro ⟨h2, -, h3, h4, h5⟩
      exact h1 ⟨h2, h3.1, h4.1, h5.1⟩
  rw [if_pos h1]
  obtain ⟨hs, hpb, hpc, hpd⟩ := h1
  have hpos : 1 ≤ s.length := by omega
  rw [checkRowsOf_eq hpos (x := .array s) (by simp [passes]), checkRowsOf_eq hpos hpb,
    checkRowsOf_eq hpos hpc, checkRowsOf_eq hpos hpd, hcols]
  simp only [passesAll, hpb, hpc, hpd, hs, true_and]
  have e0 : passes (rowsAre m.indVarNames.length) (.array s) = rowsAre m.indVarNames.length s := rfl
  rw [e0]
  generalize passes (rowsAre (nameCount m.args.interceptNames)) b = r1
  generalize passes (rowsAre (nameCount m.args.shapeNames)) c = r2
  generalize passes (rowsAre (nameCount m.args.nestSpec)) d = r3
  generalize rowsAre m.indVarNames.length s = r0
  generalize passes (fun t => decide (numColumns t = numColumns s)) b = c1
  generalize passes (fun t => decide (numColumns t = numColumns s)) c = c2
  generalize passes (fun t => decide (numColumns t = numColumns s)) d = c3
  by_cases h2 : s.length = 2
  · cases r0 <;> cases r1 <;> cases r2 <;> cases r3 <;> cases c1 <;> cases c2 <;> cases c3 <;>
      simp [h2, bind, Except.bind]
  · cases r0 <;> cases r1 <;> cases r2 <;> cases r3 <;> simp [h2, bind, Except.bind]

theorem passesAll_iff {s : List ℕ} {n k : ℕ} {rest : List ℕ} (hs : s = k :: rest) (hr : rest.length ≤ 1)
    {x : ParamObj} : passesAll s n x ↔ MissingOrRows x n rest := by
  subst hs
  cases x with
  | none => simp [passesAll, passes, MissingOrRows]
  | other => simp [passesAll, passes, MissingOrRows]
  | array t =>
    simp only [passesAll, passes, MissingOrRows, reduceCtorEq, false_or, ParamObj.array.injEq]
    match rest, hr with
    | [], _ =>
      match t with
      | [] => simp
      | [a] => simp [rowsAre]
      | _ :: _ :: _ => simp
    | [c], _ =>
      match t with
      | [] => simp
      | [a] => simp
      | [a, b] => simp [rowsAre, numColumns, and_comm]
      | _ :: _ :: _ :: _ => simp

theorem nameCount_eq {α : Type} (o : Option (List α)) : nameCount o = (o.getD []).length := by
  cases o <;> rfl

/-- The lists `predict` of a model documents. -/
def Spec.Documented {V : Type} (m : ChoiceModel V) (pl : ParamListArg) : Prop :=
  DocumentedList m.indVarNames.length (m.args.interceptNames.getD []).length
    (m.args.shapeNames.getD []).length (m.args.nestSpec.getD []).length pl

open Classical in
/-- **C76** (any object). The check of the parameter list raises `TypeError` exactly for lists of four
elements of wrong types, passes for `None` and for the documented lists (with one intercept, shape and nest
per *name* the model has for them), and raises `ValueError` in all other cases. -/
theorem param_list_check {V : Type} (m : ChoiceModel V) (pl : ParamListArg) :
    checkParamListArg m pl =
      if WrongTypes pl then .error .typeError
      else if pl = .none ∨ Documented m pl then .ok () else .error .valueError := by
  cases pl with
  | none =>
    rw [if_neg (by rintro ⟨a, b, c, d, h, -⟩; cases h), if_pos (Or.inl rfl)]
    rfl
  | other =>
    rw [if_neg (by rintro ⟨a, b, c, d, h, -⟩; cases h),
      if_neg (by rintro (h | ⟨_, b, c, d, _, h, -⟩) <;> cases h)]
    rfl
  | list l =>
    by_cases h4 : l.length = 4
    swap
    · rw [if_neg (by rintro ⟨a, b, c, d, h, -⟩; cases h; exact h4 rfl),
        if_neg (by
          rintro (h | ⟨_, b, c, d, _, h, -⟩)
          · cases h
          · cases h; exact h4 rfl)]
      simp [checkParamListArg, checkTypeAndSize, h4, bind, Except.bind]
    obtain ⟨a, b, c, d, rfl⟩ : ∃ a b c d, l = [a, b, c, d] := by
      match l, h4 with
      | [a, b, c, d], _ => exact ⟨a, b, c, d, rfl⟩
    by_cases hw : WrongTypes (.list [a, b, c, d])
    · rw [if_pos hw]
      obtain ⟨a', b', c', d', h, hbad⟩ := hw
      cases h
      have : checkElementTypes [a, b, c, d] = .error .typeError := by
        cases ha : a with
        | array s =>
          have hall : ([a, b, c, d].all ParamObj.isNoneOrArray) = false := by
            rcases hbad with h | h | h | h
            · exact absurd ha (h s)
            all_goals simp [h, ParamObj.isNoneOrArray]
          rw [ha] at hall
          simp only [checkElementTypes, firstParam, hall, assertOr, ParamObj.isArray, bind, Except.bind]
          rfl
        | _ => rfl
      simp [checkParamListArg, checkTypeAndSize, this, bind, Except.bind]
    · rw [if_neg hw]
      have hb : b ≠ .other := fun h => hw ⟨a, b, c, d, rfl, by simp [h]⟩
      have hc : c ≠ .other := fun h => hw ⟨a, b, c, d, rfl, by simp [h]⟩
      have hd : d ≠ .other := fun h => hw ⟨a, b, c, d, rfl, by simp [h]⟩
      obtain ⟨s, rfl⟩ : ∃ s, a = .array s := by
        by_contra hn
        push Not at hn
        exact hw ⟨a, b, c, d, rfl, Or.inl hn⟩
      rw [checkParamListArg_four m hb hc hd]
      refine if_congr ?_ rfl rfl
      constructor
      · rintro ⟨hs, h0, h1, h2, h3⟩
        right
        match s, hs, h0 with
        | k :: rest, hs, h0 =>
        have hr : rest.length ≤ 1 := by rw [List.length_cons] at hs; omega
        have hk : k = m.indVarNames.length := by simpa [rowsAre] using h0
        subst hk
        rw [passesAll_iff rfl hr, nameCount_eq] at h1 h2 h3
        exact ⟨rest, b, c, d, hr, rfl, h1, h2, h3⟩
      · rintro (h | ⟨rest, b', c', d', hr, h, h1, h2, h3⟩)
        · cases h
        cases h
        refine ⟨by rw [List.length_cons]; omega, by simp [rowsAre], ?_, ?_, ?_⟩
        all_goals rw [passesAll_iff rfl hr, nameCount_eq]; assumption

/-- **C76** (accepted lists). -/
theorem param_list_accepted_iff {V : Type} (m : ChoiceModel V) (pl : ParamListArg) :
    checkParamListArg m pl = .ok () ↔ pl = .none ∨ Documented m pl := by
  rw [param_list_check]
  by_cases hw : WrongTypes pl
  · rw [if_pos hw]
    simp only [reduceCtorEq, false_iff]
    obtain ⟨a, b, c, d, rfl, h⟩ := hw
    rintro (h' | ⟨rest, b', c', d', hr, h', h1, h2, h3⟩)
    · cases h'
    cases h'
    rcases h with h | h | h | h
    · exact h _ rfl
    all_goals subst h
    · rcases h1 with h | h <;> cases h
    · rcases h2 with h | h <;> cases h
    · rcases h3 with h | h <;> cases h
  · rw [if_neg hw]
    by_cases h : pl = .none ∨ Documented m pl <;> simp [h]

/-- The check that `Verif.Model.Predict` uses for four arrays of the same dimension is the check of the whole
argument. -/
theorem checkParamListArg_arrays {V W : Type} {rest : List ℕ} (hr : rest.length ≤ 1) (m : ChoiceModel V)
    (p : ParamArraysOf W) : checkParamListArg m (p.asArg rest) = checkParamListValidity m p := by
  obtain ⟨i, x, y, z⟩ := p
  have key : ∀ b c e : ParamObj, (∀ x ∈ [b, c, e], x = .none ∨ ∃ k, x = .array (k :: rest)) →
      checkParamListArg m (.list [.array (i.length :: rest), b, c, e]) = (do
        checkRowsOf (.array (i.length :: rest)) m.indVarNames.length
        checkRowsOf b (nameCount m.args.interceptNames)
        checkRowsOf c (nameCount m.args.shapeNames)
        checkRowsOf e (nameCount m.args.nestSpec)) := by
    intro b c e h
    have hlen : rest.length = 0 ∨ rest.length = 1 := by omega
    rcases h b (by simp) with rfl | ⟨k1, rfl⟩ <;> rcases h c (by simp) with rfl | ⟨k2, rfl⟩ <;>
      rcases h e (by simp) with rfl | ⟨k3, rfl⟩ <;> rcases hlen with hlen | hlen <;>
      simp [checkParamListArg, checkTypeAndSize, checkElementTypes, firstParam, firstShape, checkDimensions,
        checkColumns, assertOr, ParamObj.isArray, ParamObj.isNoneOrArray, allNoneOr, ParamObj.noneOr, bind,
        Except.bind, pure, Except.pure, numColumns, hlen]
  have hobj : ∀ x : Option (List W), arrayObj rest x = .none ∨ ∃ k, arrayObj rest x = .array (k :: rest) := by
    intro x
    cases x with
    | none => exact Or.inl rfl
    | some a => exact Or.inr ⟨_, rfl⟩
  have hrow : ∀ (x : Option (List W)) (n : ℕ), checkRowsOf (arrayObj rest x) n = checkNumRows x n := by
    intro x n
    cases x <;> rfl
  refine (key _ _ _ ?_).trans ?_
  · simp only [List.mem_cons, List.not_mem_nil, or_false]
    rintro w (rfl | rfl | rfl)
    · exact hobj x
    · exact hobj y
    · exact hobj z
  · rw [hrow, hrow, hrow]
    rfl

/-- Accepted and refused lists of a model of one index coefficient and no named intercepts. -/
example : checkParamListArg exClog (.list [.array [1], .none, .none, .none]) = .ok () ∧
    checkParamListArg exClog (.list [.array [1, 7], .none, .none, .array [0, 7]]) = .ok () ∧
    checkParamListArg exClog (.list [.array [1, 7], .none, .none, .array [0, 6]]) = .error .valueError ∧
    checkParamListArg exClog (.list [.none, .array [1], .none, .none]) = .error .typeError ∧
    checkParamListArg exClog (.list [.array [1], .array [1], .none, .none]) = .error .valueError ∧
    checkParamListArg exClog .other = .error .valueError :=
  ⟨rfl, rfl, rfl, rfl, rfl, rfl⟩

end Pylogit
