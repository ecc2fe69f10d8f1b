import Verif.Lemmas.Mappings
import Verif.Spec.Design

/-!
# C05-C08, C69: design matrices and their specification
-/

set_option linter.unusedSectionVars false

namespace Pylogit

open Spec

variable {V : Type} [LinearOrder V]

/-! ## C08 -/

theorem checkGroupItems_ok {alts : List V} {xs : List (PyVal V)} :
    checkGroupItems alts xs = .ok () ↔ ∃ l : List V, (∀ a ∈ l, a ∈ alts) ∧ xs = l.map .num := by
  induction xs with
  | nil => simp [checkGroupItems]
  | cons x xs ih =>
    cases x with
    | num a =>
      simp only [checkGroupItems, PyVal.inAlts, decide_eq_true_eq]
      constructor
      · intro h
        split_ifs at h with ha
        obtain ⟨l, hl, rfl⟩ := ih.1 h
        exact ⟨a :: l, by simpa [ha] using hl, rfl⟩
      · rintro ⟨l, hl, e⟩
        cases l with
        | nil => simp at e
        | cons b l =>
          simp only [List.map_cons, List.cons.injEq, PyVal.num.injEq] at e
          obtain ⟨rfl, rfl⟩ := e
          rw [if_pos (hl _ (by simp))]
          exact ih.2 ⟨l, fun a ha => hl a (by simp [ha]), rfl⟩
    | _ =>
      simp only [checkGroupItems, PyVal.inAlts]
      refine ⟨fun h => by simp at h, ?_⟩
      rintro ⟨l, -, e⟩
      cases l <;> simp at e

theorem checkGroups_ok {alts : List V} {gs : List (PyVal V)} :
    checkGroups alts gs = .ok () ↔ ∀ g ∈ gs, (∃ a ∈ alts, g = .num a) ∨
      ∃ l : List V, (∀ a ∈ l, a ∈ alts) ∧ g = .list (l.map .num) := by
  induction gs with
  | nil => simp [checkGroups]
  | cons g gs ih =>
    rw [List.forall_mem_cons, ← ih]
    cases g with
    | num a =>
      simp only [checkGroups, PyVal.inAlts, decide_eq_true_eq]
      by_cases ha : a ∈ alts <;> simp [ha]
    | list l =>
      simp only [checkGroups]
      cases h : checkGroupItems alts l with
      | error e =>
        simp only [bind, Except.bind, reduceCtorEq, false_iff, not_and]
        rintro (⟨a, -, h'⟩ | ⟨m, hm, h'⟩)
        · cases h'
        · injection h' with h'
          rw [checkGroupItems_ok.2 ⟨m, hm, h'⟩] at h
          cases h
      | ok u =>
        obtain ⟨m, hm, e⟩ := checkGroupItems_ok.1 h
        simp only [bind, Except.bind, iff_and_self]
        exact fun _ => Or.inr ⟨m, hm, by rw [e]⟩
    | _ => simp [checkGroups, PyVal.inAlts]

theorem checkSpecValue_ok {alts : List V} {v : PyVal V} :
    checkSpecValue alts v = .ok () ↔ WellFormed alts v := by
  cases v with
  | str s =>
    by_cases h1 : s = "all_same" <;> by_cases h2 : s = "all_diff" <;>
      simp [checkSpecValue, WellFormed, h1, h2]
  | list gs => simp [checkSpecValue, WellFormed, checkGroups_ok]
  | _ => simp [checkSpecValue, WellFormed]

/-- **C08** (acceptance). The check accepts a specification iff every value is `'all_same'`,
`'all_diff'`, or a list whose items are alternative ids or flat lists of alternative ids. -/
theorem checkSpecDict_ok_iff (alts : List V) (spec : List (String × PyVal V)) :
    checkSpecDict alts spec = .ok () ↔ ∀ kv ∈ spec, WellFormed alts kv.2 := by
  induction spec with
  | nil => simp [checkSpecDict]
  | cons kv rest ih =>
    rw [List.forall_mem_cons, ← ih, ← checkSpecValue_ok, checkSpecDict]
    cases h : checkSpecValue alts kv.2 <;> simp [bind, Except.bind]

theorem checkGroupItems_error {alts : List V} {xs : List (PyVal V)} {e : Err}
    (h : checkGroupItems alts xs = .error e) : e = .valueError := by
  induction xs with
  | nil => simp [checkGroupItems] at h
  | cons x xs ih =>
    cases x <;> simp only [checkGroupItems] at h <;> try split_ifs at h
    all_goals first
      | exact ih h
      | (injection h with h; exact h.symm)

theorem checkGroups_error {alts : List V} {xs : List (PyVal V)} {e : Err}
    (h : checkGroups alts xs = .error e) : e = .valueError := by
  induction xs with
  | nil => simp [checkGroups] at h
  | cons x xs ih =>
    cases x with
    | list l =>
      simp only [checkGroups, bind, Except.bind] at h
      cases h' : checkGroupItems alts l with
      | error e' =>
        rw [h'] at h
        injection h with h
        exact h ▸ checkGroupItems_error h'
      | ok u => rw [h'] at h; exact ih h
    | _ =>
      simp only [checkGroups] at h
      split_ifs at h
      all_goals first
        | exact ih h
        | (injection h with h; exact h.symm)

/-- A value that is neither a string nor a list. -/
def Spec.NotStrOrList : PyVal V → Prop
  | .str _ => False
  | .list _ => False
  | _ => True

theorem checkSpecValue_typeError {alts : List V} {v : PyVal V} :
    checkSpecValue alts v = .error .typeError ↔ NotStrOrList v := by
  cases v with
  | str s => simp only [checkSpecValue, NotStrOrList]; split_ifs <;> simp
  | list gs =>
    simp only [checkSpecValue, NotStrOrList, iff_false]
    intro h
    exact absurd (checkGroups_error h) (by decide)
  | _ => simp [checkSpecValue, NotStrOrList]

theorem checkSpecValue_error {alts : List V} {v : PyVal V} {e : Err}
    (h : checkSpecValue alts v = .error e) : e = .valueError ∨ e = .typeError := by
  cases v with
  | str s =>
    simp only [checkSpecValue] at h
    split_ifs at h
    injection h with h; exact Or.inl h.symm
  | list gs => exact Or.inl (checkGroups_error h)
  | _ => simp only [checkSpecValue] at h; injection h with h; exact Or.inr h.symm

/-- **C08** (errors). The check reports `TypeError` iff the first value that is not well-formed is
neither a string nor a list; every other rejection is a `ValueError`. -/
theorem checkSpecDict_typeError_iff (alts : List V) (spec : List (String × PyVal V)) :
    (checkSpecDict alts spec = .error .typeError ↔
      ∃ pre kv post, spec = pre ++ kv :: post ∧ (∀ p ∈ pre, WellFormed alts p.2) ∧
        NotStrOrList kv.2) ∧
    ∀ e, checkSpecDict alts spec = .error e → e = .valueError ∨ e = .typeError := by
  induction spec with
  | nil => simp [checkSpecDict]
  | cons kv rest ih =>
    simp only [checkSpecDict, bind, Except.bind]
    cases h : checkSpecValue alts kv.2 with
    | ok u =>
      have hw : WellFormed alts kv.2 := checkSpecValue_ok.1 h
      refine ⟨?_, ih.2⟩
      show checkSpecDict alts rest = _ ↔ _
      rw [ih.1]
      constructor
      · rintro ⟨pre, x, post, rfl, hp, hx⟩
        exact ⟨kv :: pre, x, post, rfl, List.forall_mem_cons.2 ⟨hw, hp⟩, hx⟩
      · rintro ⟨pre, x, post, e, hp, hx⟩
        cases pre with
        | nil =>
          obtain ⟨rfl, rfl⟩ := List.cons.inj e
          rw [checkSpecValue_typeError.2 hx] at h; cases h
        | cons p pre =>
          obtain ⟨rfl, rfl⟩ := List.cons.inj e
          exact ⟨pre, x, post, rfl, fun q hq => hp q (by simp [hq]), hx⟩
    | error e' =>
      refine ⟨?_, fun e he => ?_⟩
      · show Except.error e' = _ ↔ _
        constructor
        · intro he
          injection he with he
          subst he
          exact ⟨[], kv, rest, rfl, by simp, checkSpecValue_typeError.1 h⟩
        · rintro ⟨pre, x, post, e, hp, hx⟩
          cases pre with
          | nil =>
            obtain ⟨rfl, rfl⟩ := List.cons.inj e
            rw [checkSpecValue_typeError.2 hx] at h
            injection h with h; rw [h]
          | cons p pre =>
            obtain ⟨rfl, rfl⟩ := List.cons.inj e
            rw [checkSpecValue_ok.2 (hp _ (by simp))] at h; cases h
      · injection he with he
        exact he ▸ checkSpecValue_error h

example : checkSpecDict [1, 2, 3] [("cost", .list [.list [.num 1, .num 2], .num 3])] = .ok () := by
  rw [checkSpecDict_ok_iff]
  simp only [List.mem_singleton, forall_eq]
  refine Or.inr (Or.inr ⟨_, rfl, ?_⟩)
  simp only [List.mem_cons, List.not_mem_nil, or_false, forall_eq_or_imp, forall_eq]
  exact ⟨Or.inr ⟨[1, 2], by simp, rfl⟩, Or.inl ⟨3, by simp, rfl⟩⟩

/-- A well-formed value is the encoding of a typed specification. -/
theorem wellFormed_iff_encode {alts : List V} {v : PyVal V} :
    WellFormed alts v ↔ ∃ s : SpecVal V, s.ValidFor alts ∧ v = s.encode := by
  constructor
  · rintro (rfl | rfl | ⟨gs, rfl, h⟩)
    · exact ⟨.allSame, trivial, rfl⟩
    · exact ⟨.allDiff, trivial, rfl⟩
    · have : ∃ l : List (V ⊕ List V), (∀ g ∈ l, ∀ a ∈ groupIds g, a ∈ alts) ∧
          gs = l.map encodeGroup := by
        induction gs with
        | nil => exact ⟨[], by simp, rfl⟩
        | cons g gs ih =>
          obtain ⟨l, hl, e⟩ := ih fun g hg => h g (by simp [hg])
          rcases h g (by simp) with ⟨a, ha, rfl⟩ | ⟨m, hm, rfl⟩
          · exact ⟨.inl a :: l, List.forall_mem_cons.2 ⟨by simpa [groupIds] using ha, hl⟩,
              by rw [e]; rfl⟩
          · exact ⟨.inr m :: l, List.forall_mem_cons.2 ⟨hm, hl⟩, by rw [e]; rfl⟩
      obtain ⟨l, hl, rfl⟩ := this
      exact ⟨.groups l, hl, rfl⟩
  · rintro ⟨s, hs, rfl⟩
    cases s with
    | allSame => exact Or.inl rfl
    | allDiff => exact Or.inr (Or.inl rfl)
    | groups l =>
      refine Or.inr (Or.inr ⟨_, rfl, ?_⟩)
      intro g hg
      obtain ⟨x, hx, rfl⟩ := List.mem_map.1 hg
      cases x with
      | inl a => exact Or.inl ⟨a, hs _ hx a (by simp [groupIds]), rfl⟩
      | inr m => exact Or.inr ⟨m, fun a ha => hs _ hx a ha, rfl⟩

/-- Encode every entry of a typed specification. -/
def Spec.encodeAll (s : List (String × SpecVal V)) : List (String × PyVal V) :=
  s.map fun kv => (kv.1, kv.2.encode)

/-- Every accepted specification dictionary is the encoding of a typed one, so quantifying over
typed specifications loses nothing. -/
theorem accepted_spec_typed {alts : List V} {spec : List (String × PyVal V)}
    (h : checkSpecDict alts spec = .ok ()) :
    ∃ s : List (String × SpecVal V), (∀ kv ∈ s, kv.2.ValidFor alts) ∧ spec = encodeAll s := by
  rw [checkSpecDict_ok_iff] at h
  induction spec with
  | nil => exact ⟨[], by simp, rfl⟩
  | cons kv rest ih =>
    obtain ⟨l, hl, e⟩ := ih fun g hg => h g (by simp [hg])
    obtain ⟨s, hs, e'⟩ := wellFormed_iff_encode.1 (h kv (by simp))
    exact ⟨(kv.1, s) :: l, List.forall_mem_cons.2 ⟨hs, hl⟩, by rw [e]; simp [encodeAll, ← e']⟩

/-! ## C05 -/

theorem altsOf_eq {df : Frame V} {altCol : String} {alts : List V} (h : AltsOf df altCol alts) :
    npSort (npUnique (df.colList altCol)) = alts := by
  rw [npSort_npUnique]
  refine List.Perm.eq_of_pairwise (le := (· < ·))
    (fun a b _ _ hab hba => absurd hab (lt_asymm hba)) (npUnique_strict _) h.ascending ?_
  rw [List.perm_ext_iff_of_nodup (npUnique_nodup _) (h.ascending.imp fun h => ne_of_lt h)]
  intro a
  rw [mem_npUnique, h.mem, Frame.colList, List.mem_ofFn]

theorem isinGroup_map (l : List V) (a : V) : isinGroup (l.map .num) a = decide (a ∈ l) := by
  induction l with
  | nil => rfl
  | cons b l ih =>
    simp only [isinGroup, List.map_cons, List.any_cons, PyVal.inAlts] at ih ⊢
    rw [ih]
    simp [List.mem_cons, eq_comm]

/-- The described columns with their default names. -/
def Spec.described [Zero V] (fmt : V → String) (fmtList : List (PyVal V) → String) (df : Frame V)
    (altCol : String) (ds : List (ColDesc V)) : List ((Fin df.numRows → V) × String) :=
  ds.map fun d => (d.value df altCol, d.name fmt fmtList)

theorem variableColumns_encode [MulZeroOneClass V] (fmt : V → String)
    (fmtList : List (PyVal V) → String) (df : Frame V) (altCol : String) (alts : List V)
    (var : String) (s : SpecVal V) :
    variableColumns fmt fmtList df altCol alts var s.encode =
      .ok (described fmt fmtList df altCol (s.columns alts var)) := by
  cases s with
  | allSame => rfl
  | allDiff =>
    simp [variableColumns, SpecVal.encode, PyVal.eqStr, described, SpecVal.columns, ColDesc.name,
      Function.comp_def, funext_iff, ColDesc.value]
  | groups l =>
    simp only [variableColumns, SpecVal.encode, PyVal.eqStr, Bool.false_eq_true, if_false]
    have : ∀ l : List (V ⊕ List V),
        (l.map encodeGroup).mapM (groupColumn fmt fmtList df altCol var) =
        .ok (described fmt fmtList df altCol (l.map fun
          | .inl a => ColDesc.alt var a
          | .inr g => .group var g)) := by
      intro l
      induction l with
      | nil => rfl
      | cons g l ih =>
        rw [List.map_cons, List.mapM_cons, ih]
        cases g with
        | inl a =>
          simp [encodeGroup, groupColumn, bind, Except.bind, pure, Except.pure, described,
            ColDesc.name, funext_iff, ColDesc.value]
        | inr m =>
          simp [encodeGroup, groupColumn, bind, Except.bind, pure, Except.pure, described,
            ColDesc.name, funext_iff, ColDesc.value, isinGroup_map]
    exact this l

theorem designColumns_encode [MulZeroOneClass V] (fmt : V → String)
    (fmtList : List (PyVal V) → String) (df : Frame V) (altCol : String) (alts : List V)
    (s : List (String × SpecVal V)) :
    designColumns fmt fmtList df altCol alts (encodeAll s) =
      .ok (described fmt fmtList df altCol (s.flatMap fun kv => kv.2.columns alts kv.1)) := by
  induction s with
  | nil => rfl
  | cons kv rest ih =>
    simp only [encodeAll, List.map_cons, designColumns, variableColumns_encode, bind, Except.bind]
    simp only [encodeAll] at ih
    rw [ih]
    simp [described]

theorem ensureColumns_ok {df : Frame V} {cols : List String} :
    ensureColumnsInDataframe cols df = .ok () ↔ ∀ c ∈ cols, c ∈ df.columns := by
  unfold ensureColumnsInDataframe
  by_cases h : ∀ c ∈ cols, c ∈ df.columns
  · have : cols.filter (fun c => decide (c ∉ df.columns)) = [] := by simpa using h
    simp [this, h]
  · have : cols.filter (fun c => decide (c ∉ df.columns)) ≠ [] := by simpa using h
    simp [this, h]

/-- When `create_design_matrix` succeeds. -/
theorem createDesignMatrix_ok_iff [MulZeroOneClass V] {fmt : V → String}
    {fmtList : List (PyVal V) → String} {df : Frame V} {spec : List (String × PyVal V)}
    {altCol : String} {names : Option (List (String × PyVal V))}
    {cols : List (Fin df.numRows → V)} {nms : List (PyVal V)} {alts : List V}
    (ha : npSort (npUnique (df.colList altCol)) = alts) :
    createDesignMatrix fmt fmtList df spec altCol names = .ok (cols, nms) ↔
      altCol ∈ df.columns ∧ (∀ c ∈ spec.map Prod.fst, c ∈ df.columns) ∧
      checkSpecDict alts spec = .ok () ∧
      (∀ ns, names = some ns → checkNameDict ns spec alts.length = .ok ()) ∧
      ∃ cs, designColumns fmt fmtList df altCol alts spec = .ok cs ∧ cs ≠ [] ∧
        cols = cs.map Prod.fst ∧
        ((names = none ∧ nms = cs.map fun c => .str c.2) ∨
          ∃ ns, names = some ns ∧ flattenNames ns = .ok nms) := by
  subst ha
  unfold createDesignMatrix
  by_cases h1 : altCol ∈ df.columns
  swap
  · simp [h1]
  simp only [h1, not_true_eq_false, if_false, true_and]
  rw [← ensureColumns_ok]
  cases h2 : ensureColumnsInDataframe (spec.map Prod.fst) df with
  | error e => simp [bind, Except.bind]
  | ok u =>
  cases h3 : checkSpecDict (npSort (npUnique (df.colList altCol))) spec with
  | error e => simp [bind, Except.bind, h3]
  | ok u =>
  cases names with
  | none =>
    cases h4 : designColumns fmt fmtList df altCol (npSort (npUnique (df.colList altCol))) spec with
    | error e => simp [bind, Except.bind, h3, h4]
    | ok cs =>
      by_cases h5 : cs = []
      · simp [bind, Except.bind, h3, h4, h5]
      · simp [bind, Except.bind, h3, h4, h5]
        constructor
        · rintro ⟨a, b⟩; exact ⟨a.symm, b.symm⟩
        · rintro ⟨a, b⟩; exact ⟨a.symm, b.symm⟩
  | some ns =>
    cases h6 : checkNameDict ns spec (npSort (npUnique (df.colList altCol))).length with
    | error e => simp [bind, Except.bind, h3, h6]
    | ok u =>
    cases h4 : designColumns fmt fmtList df altCol (npSort (npUnique (df.colList altCol))) spec with
    | error e => simp [bind, Except.bind, h3, h4, h6]
    | ok cs =>
      by_cases h5 : cs = []
      · simp [bind, Except.bind, h3, h4, h5, h6]
      · cases h7 : flattenNames ns with
        | error e => simp [bind, Except.bind, h3, h4, h5, h6, h7]
        | ok fl =>
          simp [bind, Except.bind, h3, h4, h5, h6, h7]
          intro _
          exact eq_comm

/-- **C05** (entries). Whenever `create_design_matrix` succeeds, with or without user names, its
columns are the described columns of the specification, in specification order. -/
theorem design_entries [MulZeroOneClass V] {fmt : V → String}
    {fmtList : List (PyVal V) → String} {df : Frame V} {s : List (String × SpecVal V)}
    {altCol : String} {names : Option (List (String × PyVal V))}
    {cols : List (Fin df.numRows → V)} {nms : List (PyVal V)} {alts : List V}
    (ha : AltsOf df altCol alts)
    (h : createDesignMatrix fmt fmtList df (encodeAll s) altCol names = .ok (cols, nms)) :
    cols = (s.flatMap fun kv => kv.2.columns alts kv.1).map fun d => d.value df altCol := by
  obtain ⟨-, -, -, -, cs, h1, -, h2, -⟩ := (createDesignMatrix_ok_iff (altsOf_eq ha)).1 h
  rw [designColumns_encode] at h1
  rw [h2, ← Except.ok.inj h1]
  simp [described, Function.comp_def]

/-- **C05** (success). A specification whose variables are columns, whose ids are alternatives and
that asks for at least one column is accepted; the result is its described columns with their
default names. -/
theorem design_success [MulZeroOneClass V] (fmt : V → String)
    (fmtList : List (PyVal V) → String) (df : Frame V) (s : List (String × SpecVal V))
    (altCol : String) (alts : List V) (ha : AltsOf df altCol alts) (hcol : altCol ∈ df.columns)
    (hvars : ∀ kv ∈ s, kv.1 ∈ df.columns) (hvalid : ∀ kv ∈ s, kv.2.ValidFor alts)
    (hne : (s.flatMap fun kv => kv.2.columns alts kv.1) ≠ []) :
    createDesignMatrix fmt fmtList df (encodeAll s) altCol none =
      .ok ((s.flatMap fun kv => kv.2.columns alts kv.1).map fun d => d.value df altCol,
        (s.flatMap fun kv => kv.2.columns alts kv.1).map fun d => .str (d.name fmt fmtList)) := by
  rw [createDesignMatrix_ok_iff (altsOf_eq ha)]
  refine ⟨hcol, ?_, ?_, by simp, _, designColumns_encode .., ?_, ?_, Or.inl ⟨rfl, ?_⟩⟩
  · intro c hc
    obtain ⟨kv, hkv, rfl⟩ := List.mem_map.1 hc
    obtain ⟨x, hx, rfl⟩ := List.mem_map.1 hkv
    exact hvars x hx
  · rw [checkSpecDict_ok_iff]
    intro kv hkv
    obtain ⟨x, hx, rfl⟩ := List.mem_map.1 hkv
    exact wellFormed_iff_encode.2 ⟨x.2, hvalid x hx, rfl⟩
  · simpa [described] using hne
  · simp [described, Function.comp_def]
  · simp [described, Function.comp_def]

/-- A table of two observations and three alternatives meeting the hypotheses. -/
def exFrame : Frame ℤ where
  columns := ["alt", "cost", "income"]
  numRows := 4
  val := fun c => if c = "alt" then ![1, 2, 1, 3] else if c = "cost" then ![5, 6, 7, 8]
    else ![10, 10, 20, 20]

theorem exAlts : AltsOf exFrame "alt" [1, 2, 3] := by
  refine ⟨by decide, fun a => ?_⟩
  have : ∀ r, exFrame.val "alt" r = (![1, 2, 1, 3] : Fin 4 → ℤ) r := fun _ => rfl
  constructor
  · intro h
    rcases List.mem_cons.1 h with rfl | h
    · exact ⟨(0 : Fin 4), rfl⟩
    · rcases List.mem_cons.1 h with rfl | h
      · exact ⟨(1 : Fin 4), rfl⟩
      · rw [List.mem_singleton] at h
        exact ⟨(3 : Fin 4), h.symm⟩
  · rintro ⟨r, rfl⟩
    rw [this]
    change Fin 4 at r
    fin_cases r <;> simp

/-- A specification meeting the hypotheses of `design_success`, and the resulting columns. -/
example (fmt : ℤ → String) (fmtList : List (PyVal ℤ) → String) :
    createDesignMatrix fmt fmtList exFrame
        (encodeAll [("cost", .allSame), ("income", .groups [.inl 3, .inr [1, 2]])]) "alt" none =
      .ok ([![5, 6, 7, 8], ![0, 0, 0, 20], ![10, 10, 20, 0]],
        [.str "cost", .str ("income_" ++ fmt 3), .str ("income_" ++ fmtList [.num 1, .num 2])]) := by
  rw [design_success fmt fmtList exFrame _ "alt" [1, 2, 3] exAlts (by decide) (by decide)
    (by simp [SpecVal.ValidFor, groupIds]) (by simp [SpecVal.columns])]
  have e : (![(0:ℤ), 0, 0, 20] : Fin 4 → ℤ) =
      ColDesc.value exFrame "alt" (.alt "income" 3) := by
    funext r; fin_cases r <;> rfl
  have e2 : (![(10:ℤ), 10, 20, 0] : Fin 4 → ℤ) =
      ColDesc.value exFrame "alt" (.group "income" [1, 2]) := by
    funext r; fin_cases r <;> rfl
  rw [e, e2]
  rfl

/-! ## C06 -/

/-- **C06** (default names). The k-th default name is the name of the description of the k-th
column: it is built from the variable and the alternative or group that the column switches on. -/
theorem default_names [MulZeroOneClass V] {fmt : V → String}
    {fmtList : List (PyVal V) → String} {df : Frame V} {s : List (String × SpecVal V)}
    {altCol : String} {cols : List (Fin df.numRows → V)} {nms : List (PyVal V)} {alts : List V}
    (ha : AltsOf df altCol alts)
    (h : createDesignMatrix fmt fmtList df (encodeAll s) altCol none = .ok (cols, nms)) :
    ∃ ds : List (ColDesc V), ds = (s.flatMap fun kv => kv.2.columns alts kv.1) ∧
      cols = ds.map (fun d => d.value df altCol) ∧
      nms = ds.map fun d => .str (d.name fmt fmtList) := by
  refine ⟨_, rfl, design_entries ha h, ?_⟩
  obtain ⟨-, -, -, -, cs, h1, -, -, h2⟩ := (createDesignMatrix_ok_iff (altsOf_eq ha)).1 h
  rw [designColumns_encode] at h1
  rcases h2 with ⟨-, h2⟩ | ⟨ns, h2, -⟩
  · rw [h2, ← Except.ok.inj h1]
    simp [described, Function.comp_def]
  · cases h2

/-- Number of names a value contributes. -/
theorem flattenName_length {numAlts : ℕ} {alts : List V} {sv : SpecVal V} {v : PyVal V} {var}
    (hn : numAlts = alts.length) (h : checkNameValue numAlts sv.encode v = .ok ()) :
    ∃ l, flattenName v = .ok l ∧ l.length = (sv.columns alts var).length := by
  cases sv with
  | allSame =>
    cases v <;> simp [checkNameValue, SpecVal.encode, PyVal.eqStr, PyVal.isStr] at h
    exact ⟨_, rfl, rfl⟩
  | allDiff =>
    cases v <;> simp [checkNameValue, SpecVal.encode, PyVal.eqStr, PyVal.isStr] at h
    exact ⟨_, rfl, by simp [SpecVal.columns, h, hn]⟩
  | groups l =>
    cases v <;> simp [checkNameValue, SpecVal.encode] at h
    exact ⟨_, rfl, by simp [SpecVal.columns, h]⟩

theorem checkNameValues_ok {spec names : List (String × PyVal V)} {n : ℕ} :
    checkNameValues spec n names = .ok () ↔
      ∀ kv ∈ names, ∃ s, spec.lookup kv.1 = some s ∧ checkNameValue n s kv.2 = .ok () := by
  induction names with
  | nil => simp [checkNameValues]
  | cons kv rest ih =>
    rw [List.forall_mem_cons, ← ih, checkNameValues]
    cases h : spec.lookup kv.1 with
    | none => simp
    | some s => cases h2 : checkNameValue n s kv.2 <;> simp [bind, Except.bind, h2]

theorem checkNameDict_ok {names spec : List (String × PyVal V)} {n : ℕ} :
    checkNameDict names spec n = .ok () ↔
      (∀ k, k ∈ names.map Prod.fst ↔ k ∈ spec.map Prod.fst) ∧
      ∀ kv ∈ names, ∃ s, spec.lookup kv.1 = some s ∧ checkNameValue n s kv.2 = .ok () := by
  rw [← checkNameValues_ok, checkNameDict]
  split_ifs with h
  · exact ⟨fun h' => ⟨fun k => ⟨h.1 k, h.2 k⟩, h'⟩, fun h' => h'.2⟩
  · refine ⟨fun h' => (by cases h'), fun h' => absurd ?_ h⟩
    exact ⟨fun k => (h'.1 k).1, fun k => (h'.1 k).2⟩

theorem flattenNames_ok {names : List (String × PyVal V)} {out : List (PyVal V)} :
    flattenNames names = .ok out ↔
      ∃ f : String × PyVal V → List (PyVal V),
        (∀ kv ∈ names, flattenName kv.2 = .ok (f kv)) ∧ out = names.flatMap f := by
  classical
  induction names generalizing out with
  | nil => simp [flattenNames, eq_comm]
  | cons kv rest ih =>
    rw [flattenNames]
    cases h : flattenName kv.2 with
    | error e =>
      simp only [bind, Except.bind, reduceCtorEq, false_iff]
      rintro ⟨f, hf, -⟩
      have := hf kv (by simp)
      rw [h] at this; cases this
    | ok l =>
      simp only [bind, Except.bind]
      cases h2 : flattenNames rest with
      | error e =>
        simp only [reduceCtorEq, false_iff]
        rintro ⟨f, hf, -⟩
        have := (ih (out := rest.flatMap f)).2 ⟨f, fun kv hkv => hf kv (by simp [hkv]), rfl⟩
        rw [h2] at this; cases this
      | ok m =>
        obtain ⟨f, hf, rfl⟩ := ih.1 h2
        have hcomm : ∀ kv' ∈ rest, flattenName kv'.2 = .ok (f kv') := hf
        constructor
        · intro e
          rw [← Except.ok.inj e]
          refine ⟨fun kv' => if kv' = kv then l else f kv', ?_, ?_⟩
          · intro kv' hkv'
            by_cases e' : kv' = kv
            · simp [e', h]
            · simp only [e', if_false]
              exact hf kv' ((List.mem_cons.1 hkv').resolve_left e')
          · rw [List.flatMap_cons, if_pos rfl]
            congr 1
            refine List.flatMap_congr fun kv' hkv' => ?_
            split_ifs with e'
            · subst e'
              have := hf _ hkv'
              rw [h] at this
              exact (Except.ok.inj this).symm
            · rfl
        · rintro ⟨g, hg, rfl⟩
          have h1 := hg kv (by simp)
          rw [h] at h1
          rw [List.flatMap_cons, ← Except.ok.inj h1]
          show Except.ok _ = Except.ok _
          congr 2
          refine List.flatMap_congr fun kv' hkv' => ?_
          have := hg kv' (by simp [hkv'])
          rw [hf kv' hkv'] at this
          exact Except.ok.inj this

theorem lookup_encodeAll {s : List (String × SpecVal V)} {k : String} {v : PyVal V}
    (h : (encodeAll s).lookup k = some v) : ∃ sv, s.lookup k = some sv ∧ v = sv.encode := by
  induction s with
  | nil => simp [encodeAll] at h
  | cons kv rest ih =>
    by_cases e : k = kv.1
    · subst e
      simp only [encodeAll, List.map_cons, List.lookup_cons_self, Option.some.injEq] at h
      refine ⟨kv.2, ?_, h.symm⟩
      obtain ⟨a, b⟩ := kv
      simp
    · have e' : (k == kv.1) = false := by simpa using e
      simp only [encodeAll, List.map_cons, List.lookup_cons, e'] at h
      obtain ⟨sv, h1, h2⟩ := ih h
      refine ⟨sv, ?_, h2⟩
      obtain ⟨a, b⟩ := kv
      simp only [List.lookup_cons, e', h1]

/-- **C06** (count). With distinct dictionary keys, every successful call returns as many names as
columns, whether or not names were supplied. -/
theorem one_name_per_column [MulZeroOneClass V] {fmt : V → String}
    {fmtList : List (PyVal V) → String} {df : Frame V} {spec : List (String × PyVal V)}
    {altCol : String} {names : Option (List (String × PyVal V))}
    {cols : List (Fin df.numRows → V)} {nms : List (PyVal V)}
    (hspec : (spec.map Prod.fst).Nodup)
    (hnames : ∀ ns, names = some ns → (ns.map Prod.fst).Nodup)
    (h : createDesignMatrix fmt fmtList df spec altCol names = .ok (cols, nms)) :
    nms.length = cols.length := by
  obtain ⟨-, -, h0, hn, cs, h1, -, h2, h3⟩ := (createDesignMatrix_ok_iff rfl).1 h
  rcases h3 with ⟨-, rfl⟩ | ⟨ns, rfl, h3⟩
  · rw [h2]; simp
  obtain ⟨s, hs, rfl⟩ := accepted_spec_typed h0
  rw [designColumns_encode] at h1
  generalize npSort (npUnique (df.colList altCol)) = alts at *
  obtain rfl := Except.ok.inj h1
  obtain ⟨hk, hv⟩ := checkNameDict_ok.1 (hn ns rfl)
  obtain ⟨f, hf, rfl⟩ := flattenNames_ok.1 h3
  -- the number of names of a key
  let size : String → ℕ := fun k => ((s.lookup k).map fun sv => (sv.columns alts k).length).getD 0
  have e1 : (ns.flatMap f).length = ((ns.map Prod.fst).map size).sum := by
    rw [List.length_flatMap, List.map_map]
    refine congrArg _ (List.map_congr_left fun kv hkv => ?_)
    obtain ⟨v, hv1, hv2⟩ := hv kv hkv
    obtain ⟨sv, hsv, rfl⟩ := lookup_encodeAll hv1
    obtain ⟨l, hl1, hl2⟩ := flattenName_length (var := kv.1) rfl hv2
    rw [hf kv hkv] at hl1
    simp only [Function.comp_apply, size, hsv, Option.map_some, Option.getD_some]
    rw [Except.ok.inj hl1, hl2]
  have hs' : (s.map Prod.fst).Nodup := by
    have : (encodeAll s).map Prod.fst = s.map Prod.fst := by simp [encodeAll, Function.comp_def]
    rwa [this] at hspec
  have e2 : cols.length = ((s.map Prod.fst).map size).sum := by
    rw [h2, List.length_map, described, List.length_map, List.length_flatMap, List.map_map]
    refine congrArg _ (List.map_congr_left fun kv hkv => ?_)
    simp only [Function.comp_apply, size, lookup_of_mem_nodup hs' hkv, Option.map_some,
      Option.getD_some]
  have hp : (ns.map Prod.fst).Perm (s.map Prod.fst) := by
    rw [List.perm_ext_iff_of_nodup (hnames ns rfl) hs']
    intro k
    rw [hk k]
    simp [encodeAll]
  rw [e1, e2]
  exact (hp.map size).sum_eq

/-! ## C07 -/

/-- **C07** (what is true). If the names dictionary lists its keys in the order of the
specification, the returned names label the columns they were given for: variable by variable, the
columns of the variable are paired with the name(s) given for that variable, in order. -/
theorem user_names_same_order_partial [MulZeroOneClass V] {fmt : V → String}
    {fmtList : List (PyVal V) → String} {df : Frame V} {s : List (String × SpecVal V)}
    {altCol : String} {ns : List (String × PyVal V)}
    {cols : List (Fin df.numRows → V)} {nms : List (PyVal V)} {alts : List V}
    (ha : AltsOf df altCol alts) (hspec : (s.map Prod.fst).Nodup)
    (horder : ns.map Prod.fst = s.map Prod.fst)
    (h : createDesignMatrix fmt fmtList df (encodeAll s) altCol (some ns) = .ok (cols, nms)) :
    cols.zip nms = (s.zip ns).flatMap fun p =>
      ((p.1.2.columns alts p.1.1).map fun d => d.value df altCol).zip
        (match p.2.2 with
          | .str x => [.str x]
          | .list l => l
          | _ => []) := by
  have hc := design_entries ha h
  obtain ⟨-, -, h0, hn, cs, -, -, -, h3⟩ := (createDesignMatrix_ok_iff (altsOf_eq ha)).1 h
  rcases h3 with ⟨h3, -⟩ | ⟨ns', h3, h4⟩
  · cases h3
  obtain rfl := Option.some.inj h3
  obtain ⟨-, hv⟩ := checkNameDict_ok.1 (hn ns rfl)
  have hv' : ∀ p ∈ s.zip ns, checkNameValue alts.length p.1.2.encode p.2.2 = .ok () := by
    intro p hp
    obtain ⟨i, hi⟩ := List.mem_iff_getElem?.1 hp
    obtain ⟨hp1, hp2⟩ := List.getElem?_zip_eq_some.1 hi
    have hk : p.2.1 = p.1.1 := by
      have := congrArg (fun l => l[i]?) horder
      simpa [hp1, hp2] using this
    obtain ⟨v, hv1, hv2⟩ := hv p.2 (List.mem_of_getElem? hp2)
    obtain ⟨sv, hsv, rfl⟩ := lookup_encodeAll hv1
    rw [hk, lookup_of_mem_nodup hspec (List.mem_of_getElem? hp1)] at hsv
    rwa [Option.some.inj hsv]
  clear hv h h0 hn h3 hspec
  subst hc
  induction s generalizing ns nms with
  | nil =>
    obtain rfl : ns = [] := by simpa using horder
    simp [flattenNames] at h4
    simp
  | cons kv s ih =>
    cases ns with
    | nil => simp at horder
    | cons nv ns =>
      simp only [List.map_cons, List.cons.injEq] at horder
      simp only [List.zip_cons_cons, List.forall_mem_cons] at hv'
      obtain ⟨l, hl1, hl2⟩ := flattenName_length (var := kv.1) rfl hv'.1
      rw [flattenNames, hl1] at h4
      simp only [bind, Except.bind] at h4
      cases h5 : flattenNames ns with
      | error e => rw [h5] at h4; cases h4
      | ok m =>
        rw [h5] at h4
        obtain rfl := Except.ok.inj h4
        simp only [List.flatMap_cons, List.map_append, List.zip_cons_cons]
        rw [List.zip_append (by rw [List.length_map, hl2]), ih horder.2 h5 hv'.2]
        congr 2
        obtain ⟨k, v⟩ := nv
        cases v <;> simp [flattenName] at hl1 <;> simp [hl1]

/-- **C07** (negation). A names dictionary with the specification's keys in another order is
accepted and mislabels: the column of `cost` gets the name given for `income` and conversely. -/
theorem user_names_mislabelled (fmt : ℤ → String) (fmtList : List (PyVal ℤ) → String) :
    createDesignMatrix fmt fmtList exFrame
        (encodeAll [("cost", .allSame), ("income", .allSame)]) "alt"
        (some [("income", .str "Income"), ("cost", .str "Cost")]) =
      .ok ([exFrame.val "cost", exFrame.val "income"], [.str "Income", .str "Cost"]) := by
  rw [createDesignMatrix_ok_iff (altsOf_eq exAlts)]
  refine ⟨by decide, by decide, ?_, ?_, _, designColumns_encode .., ?_, rfl,
    Or.inr ⟨_, rfl, rfl⟩⟩
  · rfl
  · intro ns h
    rw [← Option.some.inj h]; rfl
  · simp [described, SpecVal.columns]

/-! ## C69 -/

/-- **C69**. The call succeeds iff every mixing name is a design column name, and then the k-th
position is that of the first occurrence of the k-th name; otherwise it raises `ValueError`. -/
theorem mixing_positions (mixingNames indVarNames : List String) :
    ((∀ n ∈ mixingNames, n ∈ indVarNames) →
      ∃ pos : List ℕ, convertMixingNamesToPositions mixingNames indVarNames = .ok pos ∧
        pos.length = mixingNames.length ∧
        ∀ (k : ℕ) (name : String), mixingNames[k]? = some name → ∃ p : ℕ, pos[k]? = some p ∧
          indVarNames[p]? = some name ∧ ∀ q < p, indVarNames[q]? ≠ some name) ∧
    ((∃ n ∈ mixingNames, n ∉ indVarNames) →
      convertMixingNamesToPositions mixingNames indVarNames = .error .valueError) := by
  constructor
  · intro h
    refine ⟨mixingNames.map fun n => indVarNames.idxOf n,
      mapM_ok fun x hx => by rw [if_pos (h x hx)], by simp, ?_⟩
    intro k name hk
    have hm := h name (List.mem_of_getElem? hk)
    refine ⟨indVarNames.idxOf name, by simp [hk], getElem?_idxOf hm, ?_⟩
    intro q hq e
    obtain ⟨hlt, e⟩ := List.getElem?_eq_some_iff.1 e
    have := List.not_of_lt_findIdx (p := (· == name)) hq
    simp [e] at this
  · rintro ⟨n, hn, hno⟩
    refine mapM_error (fun x _ => ?_) ⟨n, hn, by rw [if_neg hno]⟩
    by_cases hx : x ∈ indVarNames
    · exact Or.inl ⟨_, by rw [if_pos hx]⟩
    · exact Or.inr (by rw [if_neg hx])

example : convertMixingNamesToPositions ["b"] ["a", "b", "b"] = .ok [1] := by decide

end Pylogit
