import Verif.Model.Session
import Verif.Props.WideToLong
import Verif.Props.ConstructMore
import Verif.Lemmas.Panel

/-!
# C101: the caller's tables, and models that share them
-/

set_option linter.unusedSectionVars false

namespace Pylogit

variable {V : Type} [LinearOrder V]

open Spec

/-! ## Specification -/

/-- `df'` is the table `df` with a new last column `intercept` of ones. -/
structure Spec.InterceptAppended [One V] (df df' : Frame V) : Prop where
  absent : "intercept" ∉ df.columns
  columns : df'.columns = df.columns ++ ["intercept"]
  rows : df'.numRows = df.numRows
  others : ∀ c ∈ df.columns, df'.colList c = df.colList c
  ones : df'.colList "intercept" = List.replicate df.numRows 1

/-- Two models that cannot be told apart by their class, arguments, design matrix and names. -/
structure Spec.SameModel (m m' : ChoiceModel V) : Prop where
  cls : m'.cls = m.cls
  displayName : m'.displayName = m.displayName
  args : m'.args = m.args
  design : m'.design.map List.ofFn = m.design.map List.ofFn
  names : m'.indVarNames = m.indVarNames
  mixingPos : m'.mixingPos = m.mixingPos

/-- The same outcome of two constructions: the same error, or the same model. -/
def Spec.SameOutcome : Except Err (ChoiceModel V) → Except Err (ChoiceModel V) → Prop
  | .ok m, .ok m' => SameModel m m'
  | .error e, .error e' => e = e'
  | _, _ => False

/-- The columns of the table that identify observations, alternatives, choices and mixing units of a model. -/
def Spec.idColumns (a : ModelArgs V) : List String :=
  [a.obsIdCol, a.altIdCol, a.choiceCol] ++ a.mixingIdCol.toList

/-- An event that changes neither the rows of table `t` nor one of the columns `cols` of it: calls of the library, and
assignments by the caller to other columns or other tables. -/
def Spec.Harmless (t : ℕ) (cols : List String) : SessionEvent V → Prop
  | .lib _ => True
  | .setColumn t' c _ => t' = t → c ∉ cols
  | .takeRows t' _ => t' ≠ t

/-! ## The table after a call -/

/-- The table with the column. -/
def withIntercept [One V] (df : Frame V) : Frame V where
  columns := df.columns ++ ["intercept"]
  numRows := df.numRows
  val := fun c r => if c = "intercept" then 1 else df.val c r

theorem addIntercept_eq [One V] (spec : List (String × PyVal V)) (df : Frame V) :
    addIntercept spec df =
      if "intercept" ∈ spec.map Prod.fst ∧ "intercept" ∉ df.columns then withIntercept df else df := rfl

theorem withIntercept_appended [One V] {df : Frame V} (h : "intercept" ∉ df.columns) :
    InterceptAppended df (withIntercept df) where
  absent := h
  columns := rfl
  rows := rfl
  others := fun c hc => by
    have : c ≠ "intercept" := fun e => h (e ▸ hc)
    simp [Frame.colList, withIntercept, this]
  ones := by
    simp [Frame.colList, withIntercept, List.ofFn_const]

/-- What the class checks before the base constructor. -/
def Spec.ClassChecks (cls : ModelType) (a : ModelArgs V) : Prop :=
  (cls = .mnl ∨ cls = .mixed → a.interceptRefPos = .none) ∧
    (cls = .asym → ∃ z, a.shapeRefPos = .int z) ∧ (cls = .nested → ∃ l, a.nestSpec = some l)

theorem classInit_cases [MulZeroOneClass V] (env : Env V) (cls : ModelType) (df : Frame V) (a : ModelArgs V) :
    (ClassChecks cls a →
      classInit env cls df a = baseInit env cls (displayNameOf (classOf cls)) df (argsFor cls a) ∧
      classInitTable env cls df a = baseInitTable env df (argsFor cls a)) ∧
    (¬ ClassChecks cls a →
      classInit env cls df a = .error .valueError ∧ classInitTable env cls df a = df) := by
  unfold ClassChecks
  cases cls with
  | mnl => by_cases h : a.interceptRefPos = .none <;> simp [classInit, classInitTable, argsFor, h, classOf]
  | asym => cases h : a.shapeRefPos <;> simp [classInit, classInitTable, argsFor, h, classOf]
  | cloglog => simp [classInit, classInitTable, argsFor, classOf]
  | scobit => simp [classInit, classInitTable, argsFor, classOf]
  | uneven => simp [classInit, classInitTable, argsFor, classOf]
  | nested => cases h : a.nestSpec <;> simp [classInit, classInitTable, argsFor, h, classOf]
  | mixed => by_cases h : a.interceptRefPos = .none <;> simp [classInit, classInitTable, argsFor, h, classOf]

theorem createTable_cases [MulZeroOneClass V] (env : Env V) (ty : String) (df : Frame V) (a : ModelArgs V) :
    createTable env ty df a = df ∨ ("intercept" ∈ a.specification.map Prod.fst ∧ "intercept" ∉ df.columns ∧
      createTable env ty df a = withIntercept df) := by
  unfold createTable
  split
  · exact .inl rfl
  · rename_i cls _
    have hs : (argsFor cls a).specification = a.specification := by cases cls <;> rfl
    by_cases h : ClassChecks cls a
    · rw [((classInit_cases env cls df a).1 h).2, baseInitTable]
      split
      · exact .inl rfl
      · rw [hs, addIntercept_eq]
        split_ifs with hi
        · exact .inr ⟨hi.1, hi.2, rfl⟩
        · exact .inl rfl
    · exact .inl ((classInit_cases env cls df a).2 h).2

/-- **C101** (sharing). A model that is built refers to the caller's table: the table after the call is the table the
model holds. -/
theorem created_model_holds_table [MulZeroOneClass V] {env : Env V} {ty : String} {df : Frame V} {a : ModelArgs V}
    {m : ChoiceModel V} (h : createChoiceModel env ty df a = .ok m) : createTable env ty df a = m.data := by
  unfold createChoiceModel at h
  unfold createTable
  split at h
  · cases h
  · rename_i cls hc
    by_cases hk : ClassChecks cls a
    · obtain ⟨h1, h2⟩ := (classInit_cases env cls df a).1 hk
      simp only [hc]
      rw [h1] at h
      rw [h2, baseInitTable, (baseInit_ok.1 h).1, (baseInit_attrs h).2.2.1]
    · rw [((classInit_cases env cls df a).2 hk).1] at h
      cases h

/-! ## Histories of library calls -/

/-- The table itself or with the column. -/
def Grown [One V] (df df' : Frame V) : Prop :=
  df' = df ∨ ("intercept" ∉ df.columns ∧ df' = withIntercept df)

theorem grown_trans [One V] {a b c : Frame V} (h : Grown a b) (h' : Grown b c) : Grown a c := by
  rcases h with rfl | ⟨h1, rfl⟩
  · exact h'
  · rcases h' with rfl | ⟨h2, -⟩
    · exact .inr ⟨h1, rfl⟩
    · exact absurd (by simp [withIntercept]) h2

theorem grown_addIntercept [One V] (spec : List (String × PyVal V)) (df : Frame V) :
    Grown df (addIntercept spec df) := by
  rw [addIntercept_eq]
  split_ifs with h
  · exact .inr ⟨h.2, rfl⟩
  · exact .inl rfl

theorem grown_create [MulZeroOneClass V] (env : Env V) (ty : String) (df : Frame V) (a : ModelArgs V) :
    Grown df (createTable env ty df a) := by
  rcases createTable_cases env ty df a with h | ⟨-, h1, h2⟩
  · exact .inl h
  · exact .inr ⟨h1, h2⟩

theorem set_grown [One V] {l : List (Frame V)} {i t : ℕ} {df x : Frame V} (ht : l[t]? = some df)
    (hx : ∀ d, l[i]? = some d → Grown d x) : ∃ df', (l.set i x)[t]? = some df' ∧ Grown df df' := by
  rw [List.getElem?_set]
  split_ifs with h1 h2
  · subst h1
    exact ⟨x, rfl, hx df ht⟩
  · subst h1
    rw [List.getElem?_eq_none (by omega)] at ht
    cases ht
  · exact ⟨df, ht, .inl rfl⟩

theorem libCall_grown [MulZeroOneClass V] (env : Env V) (c : LibCall V) (s : Session V) {t : ℕ} {df : Frame V}
    (ht : s.tables[t]? = some df) : ∃ df', (libCall env c s).tables[t]? = some df' ∧ Grown df df' := by
  have hp : ∀ m i, ∃ df', (predictTouch s m i).tables[t]? = some df' ∧ Grown df df' := by
    intro m i
    unfold predictTouch
    split
    · rename_i d p hd hm
      refine set_grown ht fun d' hd' => ?_
      rw [hd] at hd'; cases hd'
      exact grown_addIntercept _ _
    · exact ⟨df, ht, .inl rfl⟩
  cases c with
  | create ty i a =>
    unfold libCall
    simp only
    split
    · exact ⟨df, ht, .inl rfl⟩
    · rename_i d hd
      refine set_grown ht fun d' hd' => ?_
      rw [hd] at hd'; cases hd'
      exact grown_create _ _ _ _
  | predict m i => exact hp m i
  | panelPredict m i rl cc =>
    unfold libCall
    simp only
    split_ifs
    · exact ⟨df, ht, .inl rfl⟩
    · exact hp m i
  | fit m => exact ⟨df, ht, .inl rfl⟩

theorem libCall_tables_length [MulZeroOneClass V] (env : Env V) (c : LibCall V) (s : Session V) :
    (libCall env c s).tables.length = s.tables.length := by
  have hp : ∀ m i, (predictTouch s m i).tables.length = s.tables.length := by
    intro m i
    unfold predictTouch
    split <;> simp
  unfold libCall
  repeat' split
  all_goals simp [hp]

/-- Specifications that name `intercept`. -/
def Spec.NamesIntercept (a : ModelArgs V) : Prop := "intercept" ∈ a.specification.map Prod.fst

theorem created_spec [MulZeroOneClass V] {env : Env V} {ty : String} {df : Frame V} {a : ModelArgs V}
    {m : ChoiceModel V} (h : createChoiceModel env ty df a = .ok m) : m.args.specification = a.specification := by
  unfold createChoiceModel at h
  split at h
  · cases h
  · exact (classInit_ok h).2.2.2.2.2.1

/-- A session whose models do not name `intercept`, and a call that does not either. -/
theorem libCall_quiet [MulZeroOneClass V] (env : Env V) {c : LibCall V} {s : Session V}
    (hs : ∀ p ∈ s.models, ¬ NamesIntercept p.2.args)
    (hc : ∀ ty t a, c = .create ty t a → ¬ NamesIntercept a) :
    (libCall env c s).tables = s.tables ∧ ∀ p ∈ (libCall env c s).models, ¬ NamesIntercept p.2.args := by
  have hp : ∀ m i : ℕ, (predictTouch s m i).tables = s.tables ∧
      ∀ p ∈ (predictTouch s m i).models, ¬ NamesIntercept p.2.args := by
    intro m i
    unfold predictTouch
    split
    · rename_i d p hd hm
      have hq : addIntercept p.2.args.specification d = d := by
        rw [addIntercept_eq, if_neg fun h => hs p (List.mem_of_getElem? hm) h.1]
      refine ⟨?_, hs⟩
      simp only [hq]
      refine List.ext_getElem? fun k => ?_
      rw [List.getElem?_set]
      split_ifs with h1 h2
      · rw [← h1, hd]
      · rw [List.getElem?_eq_none (by omega)]
      · rfl
    · exact ⟨rfl, hs⟩
  cases c with
  | create ty i a =>
    have hn := hc ty i a rfl
    unfold libCall
    simp only
    split
    · exact ⟨rfl, hs⟩
    · rename_i d hd
      have hq : createTable env ty d a = d := by
        rcases createTable_cases env ty d a with h | ⟨h, -⟩
        · exact h
        · exact absurd h hn
      refine ⟨?_, ?_⟩
      · simp only [hq]
        refine List.ext_getElem? fun k => ?_
        rw [List.getElem?_set]
        split_ifs with h1 h2
        · rw [← h1, hd]
        · rw [List.getElem?_eq_none (by omega)]
        · rfl
      · simp only
        split
        · rename_i m hm
          intro p hp'
          rcases List.mem_append.1 hp' with h | h
          · exact hs p h
          · simp only [List.mem_singleton] at h
            subst h
            unfold NamesIntercept
            rw [created_spec hm]
            exact hn
        · exact hs
  | predict m i => exact hp m i
  | panelPredict m i rl cc =>
    unfold libCall
    simp only
    split_ifs
    · exact ⟨rfl, hs⟩
    · exact hp m i
  | fit m => exact ⟨rfl, hs⟩

theorem history_grown [MulZeroOneClass V] (env : Env V) (l : List (LibCall V)) (s : Session V) {t : ℕ}
    {df : Frame V} (ht : s.tables[t]? = some df) :
    ∃ df', (session env s (l.map .lib)).tables[t]? = some df' ∧ Grown df df' := by
  induction l generalizing s df with
  | nil => exact ⟨df, ht, .inl rfl⟩
  | cons c l ih =>
    obtain ⟨d, h1, h2⟩ := libCall_grown env c s ht
    obtain ⟨d', h3, h4⟩ := ih (libCall env c s) h1
    exact ⟨d', h3, grown_trans h2 h4⟩

/-- **C101** (the caller's tables). Whatever calls of the library are made, in whatever order and whether or not they
succeed, no table appears or disappears, and each is as the caller made it or has one more column, `intercept`, of
ones, which it did not have. -/
theorem library_keeps_tables [MulZeroOneClass V] (env : Env V) (l : List (LibCall V)) (s : Session V) :
    (session env s (l.map .lib)).tables.length = s.tables.length ∧
    ∀ (t : ℕ) (df : Frame V), s.tables[t]? = some df → ∃ df', (session env s (l.map .lib)).tables[t]? = some df' ∧
      (df' = df ∨ InterceptAppended df df') := by
  constructor
  · induction l generalizing s with
    | nil => rfl
    | cons c l ih => exact (ih (libCall env c s)).trans (libCall_tables_length env c s)
  · intro t df ht
    obtain ⟨d, h1, h2⟩ := history_grown env l s ht
    refine ⟨d, h1, ?_⟩
    rcases h2 with h | ⟨h, rfl⟩
    · exact .inl h
    · exact .inr (withIntercept_appended h)

/-- **C101** (the caller's tables). The column is added only where it is asked for: if no model was built with a
specification that names `intercept`, the tables are as they were. -/
theorem library_changes_nothing_unasked [MulZeroOneClass V] (env : Env V) (l : List (LibCall V)) (tables : List (Frame V))
    (hl : ∀ ty t a, .create ty t a ∈ l → ¬ NamesIntercept a) :
    (session env ⟨tables, []⟩ (l.map .lib)).tables = tables := by
  suffices h : ∀ s : Session V, (∀ p ∈ s.models, ¬ NamesIntercept p.2.args) →
      (session env s (l.map .lib)).tables = s.tables from h ⟨tables, []⟩ (by simp)
  induction l with
  | nil => exact fun s _ => rfl
  | cons c l ih =>
    intro s hs
    obtain ⟨h1, h2⟩ := libCall_quiet env (c := c) hs fun ty t a e => hl ty t a (by rw [e]; simp)
    have := ih (fun ty t a h => hl ty t a (List.mem_cons_of_mem _ h)) (libCall env c s) h2
    exact this.trans h1

/-! ## Models that share a table -/

section
variable [MulZeroOneClass V] (df : Frame V)

theorem withIntercept_val {c : String} (h : c ≠ "intercept") : (withIntercept df).val c = df.val c := by
  funext r
  simp [withIntercept, h]

theorem withIntercept_colList {c : String} (h : c ≠ "intercept") : (withIntercept df).colList c = df.colList c := by
  simp [Frame.colList, withIntercept, h]

theorem withIntercept_mem {c : String} (h : c ≠ "intercept") :
    c ∈ (withIntercept df).columns ↔ c ∈ df.columns := by
  simp [withIntercept, h]

theorem withIntercept_ensure {cols : List String} (h : "intercept" ∉ cols) :
    ensureColumnsInDataframe cols (withIntercept df) = ensureColumnsInDataframe cols df := by
  unfold ensureColumnsInDataframe
  congr 2
  refine List.filter_congr fun c hc => ?_
  rw [decide_eq_decide, withIntercept_mem df fun e => h (e ▸ hc)]

theorem withIntercept_variable (fmt : V → String) (fmtList : List (PyVal V) → String) {altCol var : String}
    (ha : altCol ≠ "intercept") (hv : var ≠ "intercept") (alts : List V) (s : PyVal V) :
    variableColumns fmt fmtList (withIntercept df) altCol alts var s =
      variableColumns fmt fmtList df altCol alts var s := by
  unfold variableColumns
  rw [withIntercept_val df ha, withIntercept_val df hv]
  have : groupColumn fmt fmtList (withIntercept df) altCol var = groupColumn fmt fmtList df altCol var := by
    funext g
    unfold groupColumn
    rw [withIntercept_val df ha, withIntercept_val df hv]
    rfl
  rw [this]
  rfl

theorem withIntercept_designColumns (fmt : V → String) (fmtList : List (PyVal V) → String) {altCol : String}
    (ha : altCol ≠ "intercept") (alts : List V) {spec : List (String × PyVal V)}
    (hs : "intercept" ∉ spec.map Prod.fst) :
    designColumns fmt fmtList (withIntercept df) altCol alts spec = designColumns fmt fmtList df altCol alts spec := by
  induction spec with
  | nil => rfl
  | cons kv rest ih =>
    simp only [List.map_cons, List.mem_cons, not_or] at hs
    simp only [designColumns]
    rw [withIntercept_variable df fmt fmtList ha (Ne.symm hs.1), ih hs.2]
    rfl

theorem withIntercept_design (fmt : V → String) (fmtList : List (PyVal V) → String) {altCol : String}
    (ha : altCol ≠ "intercept") {spec : List (String × PyVal V)} (hs : "intercept" ∉ spec.map Prod.fst)
    (names : Option (List (String × PyVal V))) :
    createDesignMatrix fmt fmtList (withIntercept df) spec altCol names =
      createDesignMatrix fmt fmtList df spec altCol names := by
  unfold createDesignMatrix
  rw [withIntercept_ensure df hs, withIntercept_colList df ha]
  dsimp only
  rw [withIntercept_designColumns df fmt fmtList ha _ hs]
  simp only [withIntercept_mem df ha]
  rfl

theorem withIntercept_checks (env : Env V) {a : ModelArgs V} (h1 : a.altIdCol ≠ "intercept")
    (h2 : a.obsIdCol ≠ "intercept") (h3 : a.choiceCol ≠ "intercept") :
    initChecks env (withIntercept df) a = initChecks env df a := by
  unfold initChecks
  rw [withIntercept_ensure df (by simp [h1.symm, h2.symm, h3.symm]), allIds, withIntercept_colList df h1]
  rfl

theorem sameModel_refl (m : ChoiceModel V) : SameModel m m := ⟨rfl, rfl, rfl, rfl, rfl, rfl⟩

theorem sameOutcome_refl (r : Except Err (ChoiceModel V)) : SameOutcome r r := by
  cases r with
  | error e => rfl
  | ok m => exact sameModel_refl m

theorem withIntercept_build (env : Env V) (cls : ModelType) (name : String) {a : ModelArgs V}
    (h1 : a.altIdCol ≠ "intercept") (hs : ¬ NamesIntercept a) :
    SameOutcome (initBuild env cls name df a) (initBuild env cls name (withIntercept df) a) := by
  unfold initBuild
  rw [withIntercept_ensure df hs, withIntercept_design df env.fmt env.fmtList h1 hs]
  cases ensureColumnsInDataframe (a.specification.map Prod.fst) df with
  | error e => rfl
  | ok u =>
  cases ensureValidNums env.badCol a.specification with
  | error e => rfl
  | ok u =>
  cases createDesignMatrix env.fmt env.fmtList df a.specification a.altIdCol a.names with
  | error e => rfl
  | ok d =>
  simp only [bind, Except.bind]
  cases ensureMixingVars a.mixingVars d.2 with
  | error e => rfl
  | ok u =>
  simp only
  cases mixingPosArg a.mixingVars d.2 with
  | error e => rfl
  | ok pos => exact ⟨rfl, rfl, rfl, rfl, rfl, rfl⟩

theorem withIntercept_baseInit (env : Env V) (cls : ModelType) (name : String) {a : ModelArgs V}
    (h1 : a.altIdCol ≠ "intercept") (h2 : a.obsIdCol ≠ "intercept") (h3 : a.choiceCol ≠ "intercept")
    (hi : "intercept" ∉ df.columns) :
    SameOutcome (baseInit env cls name df a) (baseInit env cls name (withIntercept df) a) := by
  unfold baseInit
  rw [withIntercept_checks df env h1 h2 h3]
  cases initChecks env df a with
  | error e => rfl
  | ok u =>
    simp only [bind, Except.bind]
    have hw : addIntercept a.specification (withIntercept df) = withIntercept df := by
      rw [addIntercept_eq, if_neg]
      simp [withIntercept]
    rw [hw, addIntercept_eq]
    by_cases hs : "intercept" ∈ a.specification.map Prod.fst
    · rw [if_pos ⟨hs, hi⟩]
      exact sameOutcome_refl _
    · rw [if_neg fun h => hs h.1]
      exact withIntercept_build df env cls name h1 hs

end

theorem grown_create_same [MulZeroOneClass V] (env : Env V) (ty : String) {df df' : Frame V} (h : Grown df df')
    {a : ModelArgs V} (h1 : a.altIdCol ≠ "intercept") (h2 : a.obsIdCol ≠ "intercept")
    (h3 : a.choiceCol ≠ "intercept") :
    SameOutcome (createChoiceModel env ty df a) (createChoiceModel env ty df' a) := by
  rcases h with rfl | ⟨hi, rfl⟩
  · exact sameOutcome_refl _
  unfold createChoiceModel
  split
  · rfl
  · rename_i cls _
    by_cases hk : ClassChecks cls a
    · rw [((classInit_cases env cls df a).1 hk).1, ((classInit_cases env cls (withIntercept df) a).1 hk).1]
      have e1 : (argsFor cls a).altIdCol = a.altIdCol := by cases cls <;> rfl
      have e2 : (argsFor cls a).obsIdCol = a.obsIdCol := by cases cls <;> rfl
      have e3 : (argsFor cls a).choiceCol = a.choiceCol := by cases cls <;> rfl
      exact withIntercept_baseInit df env cls _ (e1 ▸ h1) (e2 ▸ h2) (e3 ▸ h3) hi
    · rw [((classInit_cases env cls df a).2 hk).1, ((classInit_cases env cls (withIntercept df) a).2 hk).1]
      rfl

/-- **C101** (no interference). Models that share a table do not interfere: whatever calls of the library were made
before, building a model on a table gives the error or the model that it would have given at the start (for id
columns that are not called `intercept`). -/
theorem models_do_not_interfere [MulZeroOneClass V] (env : Env V) (l : List (LibCall V)) (s : Session V) {t : ℕ}
    {df : Frame V} (ht : s.tables[t]? = some df) (ty : String) {a : ModelArgs V} (h1 : a.altIdCol ≠ "intercept")
    (h2 : a.obsIdCol ≠ "intercept") (h3 : a.choiceCol ≠ "intercept") :
    ∃ df', (session env s (l.map .lib)).tables[t]? = some df' ∧
      SameOutcome (createChoiceModel env ty df a) (createChoiceModel env ty df' a) := by
  obtain ⟨d, hd, hg⟩ := history_grown env l s ht
  exact ⟨d, hd, grown_create_same env ty hg h1 h2 h3⟩

/-! ## What a fit reads -/

/-- The table of a model, with its id columns as in `df`. -/
def KeepsColumns (cols : List String) (df df' : Frame V) : Prop :=
  (∀ c ∈ cols, c ∈ df'.columns) ∧ ∀ c ∈ cols, df'.colList c = df.colList c

theorem keeps_grown [One V] {cols : List String} {df d d' : Frame V} (h : KeepsColumns cols df d) (hg : Grown d d') :
    KeepsColumns cols df d' := by
  rcases hg with rfl | ⟨hi, rfl⟩
  · exact h
  · have ha := withIntercept_appended hi
    exact ⟨fun c hc => by rw [ha.columns]; exact List.mem_append_left _ (h.1 c hc),
      fun c hc => (ha.others c (h.1 c hc)).trans (h.2 c hc)⟩

theorem setColumn_colList {df : Frame V} {c c' : String} (x : ℕ → V) (h : c' ≠ c) :
    (df.setColumn c x).colList c' = df.colList c' := by
  simp [Frame.colList, Frame.setColumn, h]

theorem setColumn_columns {df : Frame V} {c c' : String} (x : ℕ → V) (h : c' ∈ df.columns) :
    c' ∈ (df.setColumn c x).columns := by
  unfold Frame.setColumn
  dsimp only
  split_ifs
  · exact h
  · exact List.mem_append_left _ h

theorem libCall_models [MulZeroOneClass V] (env : Env V) (c : LibCall V) {s : Session V} {i : ℕ}
    {p : ℕ × ChoiceModel V} (h : s.models[i]? = some p) : (libCall env c s).models[i]? = some p := by
  have hp : ∀ m j, (predictTouch s m j).models[i]? = some p := by
    intro m j
    unfold predictTouch
    split <;> exact h
  have hi : i < s.models.length := by
    by_contra hn
    rw [List.getElem?_eq_none (by omega)] at h
    cases h
  unfold libCall
  split
  · split
    · exact h
    · dsimp only
      split
      · rw [List.getElem?_append_left hi]; exact h
      · exact h
  · exact hp _ _
  · split_ifs
    · exact h
    · exact hp _ _
  · exact h

theorem event_keeps [MulZeroOneClass V] (env : Env V) {s : Session V} {t : ℕ} {cols : List String} {df d : Frame V}
    {e : SessionEvent V} (he : Harmless t cols e) (ht : s.tables[t]? = some d) (hk : KeepsColumns cols df d) :
    ∃ d', (sessionEvent env s e).tables[t]? = some d' ∧ KeepsColumns cols df d' := by
  cases e with
  | lib c =>
    obtain ⟨d', h1, h2⟩ := libCall_grown env c s ht
    exact ⟨d', h1, keeps_grown hk h2⟩
  | setColumn t' c x =>
    by_cases e : t' = t
    · subst e
      refine ⟨d.setColumn c x, by simp [sessionEvent, ht], ?_, ?_⟩
      · exact fun c' hc' => setColumn_columns x (hk.1 c' hc')
      · intro c' hc'
        rw [setColumn_colList x (c := c) fun e => he rfl (by rw [← e]; exact hc')]
        exact hk.2 c' hc'
    · exact ⟨d, by simp [sessionEvent, ht, e], hk⟩
  | takeRows t' rows => exact ⟨d, by simp [sessionEvent, ht, show t' ≠ t from he], hk⟩

theorem event_models [MulZeroOneClass V] (env : Env V) {s : Session V} {i : ℕ} {p : ℕ × ChoiceModel V}
    (h : s.models[i]? = some p) (e : SessionEvent V) : (sessionEvent env s e).models[i]? = some p := by
  cases e with
  | lib c => exact libCall_models env c h
  | setColumn t c x => exact h
  | takeRows t rows => exact h

/-- **C101** (fits). What a fit of a model reads is not changed by any history of library calls and of changes by the
caller that leave the rows and the id columns of its table alone. -/
theorem fit_reads_the_same_partial [MulZeroOneClass V] (env : Env V) {s : Session V} {i t : ℕ} {m : ChoiceModel V}
    {df : Frame V} (hm : s.models[i]? = some (t, m)) (ht : s.tables[t]? = some df)
    (hcol : ∀ c ∈ idColumns m.args, c ∈ df.columns) {l : List (SessionEvent V)}
    (hl : ∀ e ∈ l, Harmless t (idColumns m.args) e) :
    (session env s l).fitInputs i = s.fitInputs i := by
  suffices h : ∀ s' d, s'.models[i]? = some (t, m) → s'.tables[t]? = some d →
      KeepsColumns (idColumns m.args) df d → (session env s' l).fitInputs i = some (fitInputs m df) by
    rw [h s df hm ht ⟨hcol, fun _ _ => rfl⟩, Session.fitInputs, hm]
    simp [ht]
  induction l with
  | nil =>
    intro s' d h1 h2 h3
    simp only [session, List.foldl_nil, Session.fitInputs, h1, h2, Option.map_some, Option.some.injEq]
    have e1 := h3.2 m.args.obsIdCol (by simp [idColumns])
    have e2 := h3.2 m.args.altIdCol (by simp [idColumns])
    have e3 := h3.2 m.args.choiceCol (by simp [idColumns])
    have e4 : m.args.mixingIdCol.map d.colList = m.args.mixingIdCol.map df.colList := by
      cases hx : m.args.mixingIdCol with
      | none => rfl
      | some c => exact congrArg some (h3.2 c (by simp [idColumns, hx]))
    simp only [fitInputs, e1, e2, e3, e4]
  | cons e l ih =>
    intro s' d h1 h2 h3
    obtain ⟨d', h4, h5⟩ := event_keeps env (hl e (by simp)) h2 h3
    exact ih (fun e he => hl e (List.mem_cons_of_mem _ he)) _ d' (event_models env h1 e) h4 h5

/-- **C101** (fits). Right after a model is built, a fit reads the design matrix of the model and the ids and choices
of the caller's table. -/
theorem fresh_fit_reads_the_table [MulZeroOneClass V] {env : Env V} {s : Session V} {t : ℕ} {ty : String}
    {df : Frame V} {a : ModelArgs V} {m : ChoiceModel V} (ht : s.tables[t]? = some df)
    (hm : createChoiceModel env ty df a = .ok m) :
    ∃ x, (libCall env (.create ty t a) s).fitInputs s.models.length = some x ∧
      x.design = m.design.map List.ofFn ∧
      x.choices = df.colList a.choiceCol ∧ x.altIds = df.colList a.altIdCol ∧
      x.mapObs = df.colList a.obsIdCol ∧ x.mapAlts = df.colList a.altIdCol ∧
      x.mapChoices = df.colList a.choiceCol := by
  have htab := created_model_holds_table hm
  have hk : ∀ c ∈ df.columns, m.data.colList c = df.colList c := by
    intro c hc
    rw [← htab]
    rcases grown_create env ty df a with h | ⟨hi, h⟩
    · rw [h]
    · rw [h]; exact (withIntercept_appended hi).others c hc
  have hargs : m.args.altIdCol = a.altIdCol ∧ m.args.obsIdCol = a.obsIdCol ∧ m.args.choiceCol = a.choiceCol ∧
      a.altIdCol ∈ df.columns ∧ a.obsIdCol ∈ df.columns ∧ a.choiceCol ∈ df.columns := by
    unfold createChoiceModel at hm
    split at hm
    · cases hm
    · obtain ⟨h1, -, h2, h3, h4, -⟩ := classInit_ok hm
      have h5 := (initChecks_ok.1 (baseInit_ok.1 h1).1).1
      exact ⟨h2, h3, h4, h2 ▸ h5 _ (by simp), h3 ▸ h5 _ (by simp), h4 ▸ h5 _ (by simp)⟩
  obtain ⟨e1, e2, e3, c1, c2, c3⟩ := hargs
  have hlt : t < s.tables.length := by
    by_contra hn
    rw [List.getElem?_eq_none (by omega)] at ht
    cases ht
  refine ⟨fitInputs m m.data, ?_, rfl, ?_, ?_, ?_, ?_, ?_⟩
  · have hl : libCall env (.create ty t a) s =
        ⟨s.tables.set t m.data, s.models ++ [(t, m)]⟩ := by
      unfold libCall
      simp only [ht, hm, htab]
    rw [hl]
    simp [Session.fitInputs, hlt]
  all_goals simp only [fitInputs, e1, e2, e3]
  · exact hk _ c3
  · exact hk _ c1
  · exact hk _ c2
  · exact hk _ c1
  · exact hk _ c3

/-! ## The caller reorders the rows -/

theorem logLik_mnl_congr [AddGroup V] (toReal : V → ℝ) (ir sr : PyRef) {x y : FitInputs V} (h1 : y.design = x.design)
    (h2 : y.choices = x.choices) (h3 : y.mapObs = x.mapObs) (h4 : y.mapAlts.length = x.mapAlts.length)
    (p : ParamArrays) : y.logLik toReal .mnl ir sr p = x.logLik toReal .mnl ir sr p := by
  unfold FitInputs.logLik
  rw [h1, h2, h3]
  simp only [predictTransform, calcLogLikelihood, modelProbs]
  generalize x.mapAlts.length = k at h4
  subst h4
  rfl

theorem takeRows_colList (df : Frame V) (rows : List (Fin df.numRows)) (c : String) :
    (df.takeRows rows).colList c = rows.map (df.val c) := by
  refine List.ext_getElem (by simp [Frame.colList, Frame.takeRows]) fun i h1 h2 => ?_
  simp [Frame.colList, Frame.takeRows]

theorem validRows_perm {n : ℕ} {rows : List ℕ} (h : rows.Perm (List.range n)) :
    (validRows n rows).Perm (List.finRange n) := by
  have h1 := h.filterMap fun i => if h : i < n then some (⟨i, h⟩ : Fin n) else none
  refine h1.trans (List.Perm.of_eq ?_)
  rw [← List.map_coe_finRange_eq_range, List.filterMap_map]
  conv_rhs => rw [← List.filterMap_some (l := List.finRange n)]
  refine List.filterMap_congr fun i _ => ?_
  simp

/-- **C101** (rows in another order). If the caller puts the rows of its table into another order after an MNL model
was built, a fit either raises, because the observation ids are not in ascending order, or computes the log-likelihood
it would have computed before. -/
theorem mnl_fit_ignores_row_order [AddCommGroup V] [IsOrderedAddMonoid V] (toReal : V → ℝ)
    (m : ChoiceModel V) (df : Frame V) {rows : List ℕ} (hr : rows.Perm (List.range df.numRows))
    (hids : (df.colList m.args.obsIdCol).Pairwise (· ≤ ·)) (p : ParamArrays) :
    let later := fitInputs m (df.takeRows (validRows _ rows))
    later.logLik toReal .mnl .none .none p = .error .valueError ∨
      later.logLik toReal .mnl .none .none p = (fitInputs m df).logLik toReal .mnl .none .none p := by
  intro later
  have hp := validRows_perm hr
  have hcol : ∀ c, ((df.takeRows (validRows _ rows)).colList c).Perm (df.colList c) := by
    intro c
    rw [takeRows_colList, Frame.colList, List.ofFn_eq_map]
    exact hp.map _
  by_cases hs : later.mapObs.Pairwise (· ≤ ·)
  · right
    have e : later.mapObs = (fitInputs m df).mapObs :=
      (hcol m.args.obsIdCol).eq_of_pairwise (fun a b _ _ h1 h2 => le_antisymm h1 h2) hs hids
    exact logLik_mnl_congr (x := fitInputs m df) (y := later) toReal .none .none rfl rfl e
      (hcol m.args.altIdCol).length_eq p
  · left
    have : ensureContiguity later.mapObs = .error .valueError := by
      have hn : ¬ ensureContiguity later.mapObs = .ok () := fun h => hs (ensureContiguity_ok.1 h)
      unfold ensureContiguity at hn ⊢
      split_ifs at hn ⊢
      · exact absurd rfl hn
      · rfl
    unfold FitInputs.logLik
    rw [this]
    rfl

/-! ## A concrete session -/

/-- One observation of two alternatives; the first is chosen. -/
def exSessionTable : Frame ℤ where
  columns := ["alt", "obs", "y", "x"]
  numRows := 2
  val c r :=
    if c = "alt" then (![1, 2] : Fin 2 → ℤ) r
    else if c = "obs" then (![1, 1] : Fin 2 → ℤ) r
    else if c = "y" then (![1, 0] : Fin 2 → ℤ) r
    else (![5, 5] : Fin 2 → ℤ) r

/-- The arguments of a clog-log model with an outside intercept for alternative 1. -/
def exSessionArgs : ModelArgs ℤ where
  altIdCol := "alt"
  obsIdCol := "obs"
  choiceCol := "y"
  specification := [("x", .str "all_same")]
  names := none
  interceptRefPos := .int 1
  shapeRefPos := .none
  interceptNames := none
  shapeNames := none
  nestSpec := none
  mixingIdCol := none
  mixingVars := none

/-- The arguments of an MNL model with an intercept for alternative 1. -/
def exInterceptArgs : ModelArgs ℤ :=
  { exSessionArgs with interceptRefPos := .none,
                       specification := [("intercept", .list [.num 1]), ("x", .str "all_same")] }

/-- The session after the clog-log model is built. -/
def exSession : Session ℤ := libCall exEnv (.create "Cloglog" 0 exSessionArgs) ⟨[exSessionTable], []⟩

/-- The session after the caller sorted the rows in place, last row first. -/
def exSorted : Session ℤ := session exEnv exSession [.takeRows 0 [1, 0]]

/-- Building the MNL model adds the column to the caller's table. -/
example : ((libCall exEnv (.create "MNL" 0 exInterceptArgs) exSession).tables.map
    fun d => (d.columns, d.colList "intercept")) = [(["alt", "obs", "y", "x", "intercept"], [1, 1])] := by
  decide

/-- A construction that fails after the first checks changes the table as well. -/
example : (fun s : Session ℤ => (s.models.length, s.tables.map fun d => d.columns)) (libCall exEnv
      (.create "MNL" 0 { exInterceptArgs with specification := [("intercept", .str "all_the_same")] }) exSession) =
    (1, [["alt", "obs", "y", "x", "intercept"]]) := by
  decide

/-- A history that meets the hypotheses of `fit_reads_the_same_partial`: the caller overwrites a variable, predicts,
and builds another model on the same table. -/
example : (∃ m, exSession.models[0]? = some (0, m) ∧ idColumns m.args = ["obs", "alt", "y"]) ∧
    ∀ e ∈ [SessionEvent.setColumn 0 "x" (fun _ => (3 : ℤ)), .lib (.predict 0 0),
      .lib (.create "MNL" 0 exInterceptArgs)], Harmless 0 ["obs", "alt", "y"] e := by
  refine ⟨⟨_, rfl, rfl⟩, ?_⟩
  simp [Harmless]

/-- An order of rows that meets the hypotheses of `mnl_fit_ignores_row_order`. -/
example : [1, 0].Perm (List.range exSessionTable.numRows) ∧ (exSessionTable.colList "obs").Pairwise (· ≤ ·) := by
  decide

/-- The parameters of the witness: coefficient 0, intercept `a` of alternative 1. -/
def exParams (a : ℝ) : ParamArrays := ⟨[0], some [a], none, none⟩

theorem ex_intercepts (l uniq : List ℤ) (hu : uniq = [1, 2]) (a : ℝ) :
    interceptTerm .cloglog (sparseMapping (V := ℝ) l uniq) (.int 1) (some [a]) =
      .ok fun r => if l.get r = 1 then a else 0 := by
  subst hu
  have h1 : removeRef ([1, 2] : List ℤ).length (.int 1) = .ok [0] := rfl
  have h2 : scatter ([1, 2] : List ℤ).length [0] [a] = .ok [a, 0] := by
    simp [scatter, List.range_succ]
  simp only [interceptTerm, reduceCtorEq, if_false, h1, bind, Except.bind, h2]
  unfold mappingDot
  rw [if_neg (by simp)]
  congr 1
  funext r
  simp only [Matrix.mulVec, dotProduct, sparseMapping_apply _ _ (by decide : ([1, 2] : List ℤ).Nodup)]
  simp [Fin.sum_univ_succ]

theorem ex_clog_bounds : 0 ≤ clogH 0 ∧ clogH 0 ≤ 1 := by
  have h1 : (2 : ℝ) ≤ Real.exp 1 := by have := Real.add_one_le_exp (1 : ℝ); linarith
  have h2 : Real.exp 1 - 1 ≠ 0 := by linarith
  have h3 : clogH 0 = Real.log (Real.exp 1 - 1) := by
    rw [clogH, if_neg (by norm_num), Real.exp_zero, logGuard, if_neg h2]
  rw [h3]
  refine ⟨Real.log_nonneg (by linarith), ?_⟩
  rw [Real.log_le_iff_le_exp (by linarith)]
  linarith

theorem ex_logLik (ch ai mc : List ℤ) {l : List ℤ} (hl : l = [1, 2] ∨ l = [2, 1]) {a : ℝ} (ha : |a| ≤ 600) :
    (FitInputs.mk [[5, 5]] ch ai [1, 1] l mc none).logLik (fun z : ℤ => (z : ℝ)) .cloglog (.int 1) .none
      (exParams a) = .ok (∑ r : Fin l.length, ((ch[r.val]?.map fun z : ℤ => (z : ℝ)).getD 0) *
        Real.log (Real.exp (if l.get r = 1 then a else 0) / (1 + Real.exp a))) := by
  have hc : ensureContiguity ([1, 1] : List ℤ) = .ok () := by decide
  have hu : npSort (npUnique l) = [1, 2] := by rcases hl with rfl | rfl <;> decide
  have hb := ex_clog_bounds
  have hI := ex_intercepts l _ hu a
  unfold FitInputs.logLik
  simp only [hc, bind, Except.bind, exParams, List.map_cons, List.map_nil]
  have hd : ∀ col : Fin l.length → ℝ, designDot [col] [0] = .ok fun _ => 0 := by
    intro col
    unfold designDot
    rw [if_neg (by simp)]
    congr 1
    funext r
    simp
  simp only [hd, predictTransform, rowsToAlts, hI, bind, Except.bind]
  congr 1
  unfold calcLogLikelihood
  simp only [defaultWeights, Option.getD_none, one_mul, modelProbs]
  refine Finset.sum_congr rfl fun r _ => ?_
  congr 2
  have hlen : l.length = 2 := by rcases hl with rfl | rfl <;> rfl
  have hind : ∀ uniq : List ℤ, uniq = [1] → ∃ f : Fin l.length → Fin uniq.length,
      Indicates (Matrix.of fun (r : Fin l.length) (o : Fin uniq.length) =>
        if ([1, 1] : List ℤ)[r.val]? = some (uniq.get o) then (1 : ℝ) else 0) f ∧ ∀ r s, f r = f s := by
    rintro uniq rfl
    refine ⟨fun _ => 0, fun r o => ?_, fun _ _ => rfl⟩
    have ho : o = 0 := Subsingleton.elim (α := Fin 1) _ _
    have hr : ([1, 1] : List ℤ)[r.val]? = some 1 := by
      have := r.isLt
      have : r.val = 0 ∨ r.val = 1 := by omega
      rcases this with h | h <;> simp [h]
    simp [ho, hr]
  obtain ⟨f, hf, hff⟩ := hind _ (by decide : originalOrderUniqueIds ([1, 1] : List ℤ) = [1])
  obtain ⟨ha1, ha2⟩ := abs_le.1 ha
  rw [longProbs_eq_logitProb hf r, logitProb]
  · have hall : rowsOf f (f r) = Finset.univ := by
      ext s
      simp [mem_rowsOf, hff s r]
    rw [hall]
    simp only [Real.exp_add]
    rw [← Finset.mul_sum, mul_div_mul_left _ _ (Real.exp_pos _).ne']
    congr 1
    rcases hl with rfl | rfl <;> simp [Fin.sum_univ_succ, add_comm]
  · intro s _
    rw [abs_le]
    split_ifs <;> constructor <;> linarith [hb.1, hb.2]

/-- **C101** (fails for rows sorted in place). A model keeps the design matrix and choices it was built with but takes
alternatives and observations from the table as it is now.  Here the caller sorts the rows in place between the
construction of a clog-log model and its fit: no check fails, and the choice of alternative 1 counts as a choice of
alternative 2, so that the fit drives the intercept to the wrong side.  A model built before or after the sort is
right. -/
theorem fit_after_sort_reads_mixture {a : ℝ} (ha : |a| ≤ 600) :
    (∃ x, exSession.fitInputs 0 = some x ∧
      x.logLik (fun z : ℤ => (z : ℝ)) .cloglog (.int 1) .none (exParams a) = .ok (-Real.log (1 + Real.exp (-a)))) ∧
    (∃ x, exSorted.fitInputs 0 = some x ∧
      x.logLik (fun z : ℤ => (z : ℝ)) .cloglog (.int 1) .none (exParams a) = .ok (-Real.log (1 + Real.exp a))) ∧
    ∃ x, (libCall exEnv (.create "Cloglog" 0 exSessionArgs) exSorted).fitInputs 1 = some x ∧
      x.logLik (fun z : ℤ => (z : ℝ)) .cloglog (.int 1) .none (exParams a) =
        .ok (-Real.log (1 + Real.exp (-a))) := by
  have h1 : Real.log (Real.exp a / (1 + Real.exp a)) = -Real.log (1 + Real.exp (-a)) := by
    rw [← Real.log_inv]
    congr 1
    have := Real.exp_pos a
    rw [Real.exp_neg]
    field_simp
    ring
  have h2 : Real.log (Real.exp 0 / (1 + Real.exp a)) = -Real.log (1 + Real.exp a) := by
    rw [← Real.log_inv, Real.exp_zero, one_div]
  refine ⟨⟨⟨[[5, 5]], [1, 0], [1, 2], [1, 1], [1, 2], [1, 0], none⟩, by decide, ?_⟩,
    ⟨⟨[[5, 5]], [1, 0], [1, 2], [1, 1], [2, 1], [0, 1], none⟩, by decide, ?_⟩,
    ⟨[[5, 5]], [0, 1], [2, 1], [1, 1], [2, 1], [0, 1], none⟩, by decide, ?_⟩
  · rw [ex_logLik _ _ _ (.inl rfl) ha, ← h1]
    simp [Fin.sum_univ_succ]
  · rw [ex_logLik _ _ _ (.inr rfl) ha, ← h2]
    simp [Fin.sum_univ_succ]
  · rw [ex_logLik _ _ _ (.inr rfl) ha, ← h1]
    simp [Fin.sum_univ_succ]

end Pylogit
