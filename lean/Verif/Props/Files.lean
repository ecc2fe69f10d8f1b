import Verif.Model.Files
import Verif.Props.Session

/-!
# C124: CSV files as data
-/

set_option linter.unusedSectionVars false

namespace Pylogit

variable {V C : Type} [LinearOrder V]

open Spec

/-! ## Specification -/

/-- The caller's `i`th table, as it is now. -/
def Spec.callersTable (s : FileSession C V) (i : ℕ) : Option (Frame V) :=
  (s.mine[i]?).bind fun j => s.heap.tables[j]?

/-- What the argument `data` stands for: the content of a file whose name ends in `.csv`, as it is now; one of the
caller's tables; or an exception. -/
inductive Spec.Denotes (read : ReadCsv C V) (s : FileSession C V) : DataArg → Except Err (Frame V) → Prop
  | csv (stem : String) : Denotes read s (.str (stem ++ ".csv")) (read (s.files (stem ++ ".csv")))
  | notCsv {path : String} (h : ∀ stem, path ≠ stem ++ ".csv") : Denotes read s (.str path) (.error .valueError)
  | table {i : ℕ} {df : Frame V} (h : callersTable s i = some df) : Denotes read s (.table i) (.ok df)
  | noTable {i : ℕ} (h : callersTable s i = none) : Denotes read s (.table i) (.error .typeError)
  | other : Denotes read s .other (.error .typeError)

/-- The session in which nothing has happened, with some files. -/
def Spec.freshSession (files : String → Option C) : FileSession C V := ⟨files, [], ⟨[], []⟩⟩

/-- Sessions that can arise: everything after a history of events. -/
def Spec.Arises [MulZeroOneClass V] (env : Env V) (read : ReadCsv C V) (s : FileSession C V) : Prop :=
  ∃ files l, s = fileSession env read (freshSession files) l

/-- Valid model types with arguments that pass the first checks of their class. -/
def Spec.FirstChecks (ty : String) (a : ModelArgs V) : Prop :=
  ∃ cls, modelTypeToClass.lookup ty = some cls ∧ ClassChecks cls a

/-! ## Helpers -/

theorem suffix_iff {path : String} : ".csv".toList <:+ path.toList ↔ ∃ stem, path = stem ++ ".csv" := by
  constructor
  · rintro ⟨l, h⟩
    refine ⟨String.ofList l, ?_⟩
    apply String.toList_injective
    simp [← h]
  · rintro ⟨stem, rfl⟩
    exact ⟨stem.toList, by simp⟩

theorem checksBeforeData_eq (ty : String) (a : ModelArgs V) :
    (FirstChecks ty a → checksBeforeData ty a = .ok ()) ∧
      (¬ FirstChecks ty a → checksBeforeData ty a = .error .valueError) := by
  unfold FirstChecks checksBeforeData ClassChecks
  cases h : modelTypeToClass.lookup ty with
  | none => simp
  | some cls =>
    cases cls with
    | mnl => by_cases h : a.interceptRefPos = .none <;> simp [h]
    | asym => cases h : a.shapeRefPos <;> simp
    | cloglog => simp
    | scobit => simp
    | uneven => simp
    | nested => cases h : a.nestSpec <;> simp
    | mixed => by_cases h : a.interceptRefPos = .none <;> simp [h]

theorem create_not_checked [MulZeroOneClass V] (env : Env V) {ty : String} {a : ModelArgs V} (h : ¬ FirstChecks ty a)
    (df : Frame V) : createChoiceModel env ty df a = .error .valueError := by
  unfold createChoiceModel
  split
  · rfl
  · rename_i cls hc
    exact ((classInit_cases env cls df a).2 fun hk => h ⟨cls, hc, hk⟩).1

/-- Positions of the caller's tables exist. -/
def WellPlaced (s : FileSession C V) : Prop := ∀ j ∈ s.mine, j < s.heap.tables.length

/-- What `getDataframe` does to a session, and where the table is. -/
theorem getDataframe_ok {read : ReadCsv C V} {data : DataArg} {s s' : FileSession C V} {i : ℕ}
    (h : getDataframe read data s = .ok (i, s')) :
    (∃ path df, data = .str path ∧ read (s.files path) = .ok df ∧ i = s.heap.tables.length ∧
        s' = { s with heap := { s.heap with tables := s.heap.tables ++ [df] } }) ∨ (i ∈ s.mine ∧ s' = s ∧
          ∃ k, data = .table k ∧ s.mine[k]? = some i) := by
  unfold getDataframe at h
  cases data with
  | str path =>
    simp only at h
    split_ifs at h with hs
    · cases hr : read (s.files path) with
      | error e => simp [hr, bind, Except.bind] at h
      | ok df =>
        simp only [hr, bind, Except.bind, Except.ok.injEq, Prod.mk.injEq] at h
        exact .inl ⟨path, df, rfl, hr, h.1.symm, h.2.symm⟩
  | table k =>
    simp only at h
    cases hk : s.mine[k]? with
    | none => simp [hk] at h
    | some j =>
      simp only [hk, Except.ok.injEq, Prod.mk.injEq] at h
      obtain ⟨rfl, rfl⟩ := h
      exact .inr ⟨List.mem_of_getElem? hk, rfl, k, rfl, hk⟩
  | other => cases h

/-- The value of the argument, whatever the session. -/
theorem getDataframe_denotes {read : ReadCsv C V} {s : FileSession C V} (hw : WellPlaced s) {data : DataArg}
    {r : Except Err (Frame V)} (h : Denotes read s data r) :
    (∀ e, r = .error e → getDataframe read data s = .error e) ∧
      ∀ df, r = .ok df → ∃ i s', getDataframe read data s = .ok (i, s') ∧ s'.heap.tables[i]? = some df := by
  cases h with
  | csv stem =>
    have hs : ".csv".toList <:+ (stem ++ ".csv").toList := suffix_iff.2 ⟨stem, rfl⟩
    constructor
    · intro e he
      simp only [getDataframe, if_pos hs, he, bind, Except.bind]
    · intro df hd
      refine ⟨s.heap.tables.length, { s with heap := { s.heap with tables := s.heap.tables ++ [df] } }, ?_, by simp⟩
      simp only [getDataframe, if_pos hs, hd, bind, Except.bind]
  | notCsv hn =>
    refine ⟨fun e he => ?_, fun df hd => by cases hd⟩
    cases he
    simp only [getDataframe]
    rw [if_neg fun hs => ?_]
    obtain ⟨stem, e⟩ := suffix_iff.1 hs
    exact hn stem e
  | @table i df' ht =>
    refine ⟨fun e he => (by cases he), fun df hd => ?_⟩
    cases hd
    unfold callersTable at ht
    cases hk : s.mine[i]? with
    | none => simp [hk] at ht
    | some j =>
      rw [hk] at ht
      exact ⟨j, s, by simp [getDataframe, hk], by simpa using ht⟩
  | @noTable i ht =>
    refine ⟨fun e he => ?_, fun df hd => by cases hd⟩
    cases he
    unfold callersTable at ht
    cases hk : s.mine[i]? with
    | none => simp [getDataframe, hk]
    | some j =>
      have := hw j (List.mem_of_getElem? hk)
      rw [hk, Option.bind_some, List.getElem?_eq_getElem this] at ht
      cases ht
  | other =>
    refine ⟨fun e he => ?_, fun df hd => by cases hd⟩
    cases he
    rfl

/-! ## One call on the heap -/

theorem libCall_other [MulZeroOneClass V] (env : Env V) (s : Session V) {i t : ℕ} (h : i ≠ t) :
    (∀ ty a, (libCall env (.create ty i a) s).tables[t]? = s.tables[t]?) ∧
    (∀ m, (libCall env (.predict m i) s).tables[t]? = s.tables[t]?) ∧
    (∀ m rl cc, (libCall env (.panelPredict m i rl cc) s).tables[t]? = s.tables[t]?) := by
  have hp : ∀ m, (predictTouch s m i).tables[t]? = s.tables[t]? := by
    intro m
    unfold predictTouch
    split
    · simp [h]
    · rfl
  refine ⟨fun ty a => ?_, hp, fun m rl cc => ?_⟩
  · simp only [libCall]
    split
    · rfl
    · simp [h]
  · simp only [libCall]
    split_ifs
    · rfl
    · exact hp m

/-- What a call does, table by table: files and names stay, tables at positions that the call was not given stay, the
number of tables does not shrink and models stay. -/
theorem fileCall_frame [MulZeroOneClass V] (env : Env V) (read : ReadCsv C V) (c : FileCall V) (s : FileSession C V) :
    (fileCall env read c s).files = s.files ∧ (fileCall env read c s).mine = s.mine ∧
    s.heap.tables.length ≤ (fileCall env read c s).heap.tables.length ∧
    (∀ t : ℕ, t < s.heap.tables.length → t ∉ s.mine →
      (fileCall env read c s).heap.tables[t]? = s.heap.tables[t]?) ∧
    ∀ (k : ℕ) p, s.heap.models[k]? = some p → (fileCall env read c s).heap.models[k]? = some p := by
  have key : ∀ data (f : ℕ → Session V → Session V),
      (∀ i u, (f i u).tables.length = u.tables.length) → (∀ (i : ℕ) (u : Session V) (t : ℕ), i ≠ t → (f i u).tables[t]? = u.tables[t]?) →
      (∀ i u (k : ℕ) p, u.models[k]? = some p → (f i u).models[k]? = some p) →
      (withDataframe read data s f).files = s.files ∧ (withDataframe read data s f).mine = s.mine ∧
      s.heap.tables.length ≤ (withDataframe read data s f).heap.tables.length ∧
      (∀ t : ℕ, t < s.heap.tables.length → t ∉ s.mine →
        (withDataframe read data s f).heap.tables[t]? = s.heap.tables[t]?) ∧
      ∀ (k : ℕ) p, s.heap.models[k]? = some p → (withDataframe read data s f).heap.models[k]? = some p := by
    intro data f h1 h2 h3
    unfold withDataframe
    split
    · exact ⟨rfl, rfl, le_rfl, fun _ _ _ => rfl, fun _ _ h => h⟩
    · rename_i i s' hg
      rcases getDataframe_ok hg with ⟨path, df, -, -, rfl, rfl⟩ | ⟨hi, rfl, -⟩
      · refine ⟨rfl, rfl, ?_, fun t ht _ => ?_, fun k p h => h3 _ _ k p h⟩
        · simp [h1]
        · simp only
          rw [h2 _ _ t (by omega)]
          simp [List.getElem?_append_left ht]
      · refine ⟨rfl, rfl, by simp [h1], fun t _ hm => ?_, fun k p h => h3 _ _ k p h⟩
        exact h2 _ _ t fun e => hm (e ▸ hi)
  cases c with
  | create ty data a =>
    simp only [fileCall]
    split
    · exact ⟨rfl, rfl, le_rfl, fun _ _ _ => rfl, fun _ _ h => h⟩
    · exact key data _ (fun i u => libCall_tables_length env _ u) (fun i u t h => (libCall_other env u h).1 ty a)
        fun i u k p h => libCall_models env _ h
  | predict m data =>
    exact key data _ (fun i u => libCall_tables_length env _ u) (fun i u t h => (libCall_other env u h).2.1 m)
        fun i u k p h => libCall_models env _ h
  | panelPredict m data rl cc =>
    simp only [fileCall]
    split_ifs
    · exact ⟨rfl, rfl, le_rfl, fun _ _ _ => rfl, fun _ _ h => h⟩
    · exact key data _ (fun i u => libCall_tables_length env _ u) (fun i u t h => (libCall_other env u h).2.2 m rl cc)
        fun i u k p h => libCall_models env _ h
  | fit m => exact ⟨rfl, rfl, le_rfl, fun _ _ _ => rfl, fun _ _ h => h⟩

/-- One event leaves a table the caller has no name for alone, and models stay. -/
theorem fileEvent_frame [MulZeroOneClass V] (env : Env V) (read : ReadCsv C V) (e : FileEvent C V) (s : FileSession C V) :
    s.heap.tables.length ≤ (fileEvent env read s e).heap.tables.length ∧
    (∀ t : ℕ, t < s.heap.tables.length → t ∉ s.mine → t ∉ (fileEvent env read s e).mine ∧
      (fileEvent env read s e).heap.tables[t]? = s.heap.tables[t]?) ∧
    (WellPlaced s → WellPlaced (fileEvent env read s e)) ∧
    ∀ (k : ℕ) p, s.heap.models[k]? = some p → (fileEvent env read s e).heap.models[k]? = some p := by
  have key : ∀ i (f : ℕ → SessionEvent V), (∀ j (u : Session V), (sessionEvent env u (f j)).tables.length = u.tables.length) →
      (∀ j (u : Session V) t, j ≠ t → (sessionEvent env u (f j)).tables[t]? = u.tables[t]?) →
      s.heap.tables.length ≤ (changeMine env s i f).heap.tables.length ∧
      (∀ t : ℕ, t < s.heap.tables.length → t ∉ s.mine → t ∉ (changeMine env s i f).mine ∧
        (changeMine env s i f).heap.tables[t]? = s.heap.tables[t]?) ∧
      (WellPlaced s → WellPlaced (changeMine env s i f)) ∧
      ∀ (k : ℕ) p, s.heap.models[k]? = some p → (changeMine env s i f).heap.models[k]? = some p := by
    intro i f h1 h2
    unfold changeMine
    split
    · rename_i j hj
      refine ⟨by simp [h1], fun t _ hm => ⟨hm, h2 _ _ t fun e => hm (e ▸ List.mem_of_getElem? hj)⟩, fun hw k hk => ?_,
        fun k p h => event_models env h _⟩
      simpa [h1] using hw k hk
    · exact ⟨le_rfl, fun t _ hm => ⟨hm, rfl⟩, id, fun _ _ h => h⟩
  cases e with
  | lib c =>
    obtain ⟨-, h2, h3, h4, h5⟩ := fileCall_frame env read c s
    refine ⟨h3, fun t ht hm => ⟨?_, h4 t ht hm⟩, fun hw j hj => ?_, h5⟩
    · simp only [fileEvent, h2]; exact hm
    · simp only [fileEvent, h2] at hj ⊢
      exact (hw j hj).trans_le h3
  | newTable df =>
    refine ⟨by simp [fileEvent], fun t ht hm => ⟨?_, ?_⟩, fun hw j hj => ?_, fun k p h => h⟩
    · simp only [fileEvent, List.mem_append, List.mem_singleton, not_or]
      exact ⟨hm, by omega⟩
    · simp [fileEvent, List.getElem?_append_left ht]
    · simp only [fileEvent, List.mem_append, List.mem_singleton, List.length_append, List.length_singleton] at hj ⊢
      rcases hj with hj | hj
      · exact (hw j hj).trans (by omega)
      · omega
  | setColumn i c x =>
    exact key i _ (fun j u => by simp [sessionEvent]) fun j u t h => by simp [sessionEvent, h]
  | takeRows i rows =>
    exact key i _ (fun j u => by simp [sessionEvent]) fun j u t h => by simp [sessionEvent, h]
  | write path content => exact ⟨le_rfl, fun t _ hm => ⟨hm, rfl⟩, id, fun _ _ h => h⟩

theorem fileSession_frame [MulZeroOneClass V] (env : Env V) (read : ReadCsv C V) (l : List (FileEvent C V))
    (s : FileSession C V) : (∀ t : ℕ, t < s.heap.tables.length → t ∉ s.mine →
      (fileSession env read s l).heap.tables[t]? = s.heap.tables[t]?) ∧
    (WellPlaced s → WellPlaced (fileSession env read s l)) ∧
    ∀ (k : ℕ) p, s.heap.models[k]? = some p → (fileSession env read s l).heap.models[k]? = some p := by
  induction l generalizing s with
  | nil => exact ⟨fun _ _ _ => rfl, id, fun _ _ h => h⟩
  | cons e l ih =>
    obtain ⟨h1, h2, h3, h4⟩ := fileEvent_frame env read e s
    obtain ⟨i1, i2, i3⟩ := ih (fileEvent env read s e)
    refine ⟨fun t ht hm => ?_, fun hw => i2 (h3 hw), fun k p h => i3 k p (h4 k p h)⟩
    obtain ⟨a1, a2⟩ := h2 t ht hm
    exact (i1 t (by omega) a1).trans a2

theorem arises_placed [MulZeroOneClass V] {env : Env V} {read : ReadCsv C V} {s : FileSession C V}
    (h : Arises env read s) : WellPlaced s := by
  obtain ⟨files, l, rfl⟩ := h
  exact (fileSession_frame env read l _).2.1 fun j hj => by simp [freshSession] at hj

/-! ## Theorems -/

/-- **C124** (what the argument means). Building a model raises `ValueError` if the model type is not valid or the first
checks of its class fail, without looking at the data; otherwise it raises the exception the data stands for, or does
what it does for the table the data stands for. -/
theorem create_from_data [MulZeroOneClass V] {env : Env V} {read : ReadCsv C V} {s : FileSession C V}
    (hs : Arises env read s) {data : DataArg} {r : Except Err (Frame V)} (h : Denotes read s data r) (ty : String)
    (a : ModelArgs V) :
    (¬ FirstChecks ty a → createFrom env read ty data a s = .error .valueError) ∧
    (FirstChecks ty a → ∀ e, r = .error e → createFrom env read ty data a s = .error e) ∧
    ∀ df, r = .ok df → createFrom env read ty data a s = createChoiceModel env ty df a := by
  obtain ⟨h1, h2⟩ := getDataframe_denotes (arises_placed hs) h
  obtain ⟨c1, c2⟩ := checksBeforeData_eq ty a
  have hbad : ¬ FirstChecks ty a → createFrom env read ty data a s = .error .valueError := by
    intro hb
    simp [createFrom, c2 hb, bind, Except.bind]
  refine ⟨hbad, fun hg e he => ?_, fun df hd => ?_⟩
  · simp [createFrom, c1 hg, h1 e he, bind, Except.bind]
  · by_cases hg : FirstChecks ty a
    · obtain ⟨i, s', hi, ht⟩ := h2 df hd
      simp [createFrom, c1 hg, hi, ht, bind, Except.bind]
    · rw [hbad hg, create_not_checked env hg]

/-- **C124** (files and tables are alike). A model built from a file is the one, or the exception is the one, that a
table with the content of the file gives. -/
theorem file_as_good_as_table [MulZeroOneClass V] {env : Env V} {read : ReadCsv C V} {s s' : FileSession C V}
    (hs : Arises env read s) (hs' : Arises env read s') {stem : String} {i : ℕ} {df : Frame V}
    (hf : read (s.files (stem ++ ".csv")) = .ok df) (ht : callersTable s' i = some df) (ty : String) (a : ModelArgs V) :
    createFrom env read ty (.str (stem ++ ".csv")) a s = createFrom env read ty (.table i) a s' := by
  rw [(create_from_data hs (.csv stem) ty a).2.2 df hf, (create_from_data hs' (.table ht) ty a).2.2 df rfl]

/-- **C124** (predictions). The same for predictions. -/
theorem predict_from_data {env : Env ℝ} {read : ReadCsv C ℝ} {s : FileSession C ℝ} (hs : Arises env read s)
    {data : DataArg} {r : Except Err (Frame ℝ)} (h : Denotes read s data r) (m : ChoiceModel ℝ) (stored : ParamArrays) :
    (∀ e, r = .error e → predictFrom env read m stored data s = .error e) ∧
    ∀ df, r = .ok df →
      (∀ q, predict env m stored df none true none = .ok (.long q) →
        predictFrom env read m stored data s = .ok (List.ofFn fun i => q i ())) ∧
      ∀ e, predict env m stored df none true none = .error e → predictFrom env read m stored data s = .error e := by
  obtain ⟨h1, h2⟩ := getDataframe_denotes (arises_placed hs) h
  refine ⟨fun e he => ?_, fun df hd => ⟨fun q hq => ?_, fun e hq => ?_⟩⟩
  · simp [predictFrom, h1 e he, bind, Except.bind]
  · obtain ⟨i, s', hi, ht⟩ := h2 df hd
    simp [predictFrom, hi, ht, hq, bind, Except.bind]
  · obtain ⟨i, s', hi, ht⟩ := h2 df hd
    simp [predictFrom, hi, ht, hq, bind, Except.bind]

/-- **C124** (files are only read). No call of the library, in whatever history, changes a file. -/
theorem library_keeps_files [MulZeroOneClass V] (env : Env V) (read : ReadCsv C V) (s : FileSession C V)
    (l : List (FileCall V)) : (fileSession env read s (l.map .lib)).files = s.files := by
  induction l generalizing s with
  | nil => rfl
  | cons c l ih => exact (ih (fileCall env read c s)).trans (fileCall_frame env read c s).1

/-- What a history leaves in a file: what was last written to it, or what it had. -/
def Spec.lastWritten (path : String) : Option C → List (FileEvent C V) → Option C
  | c, [] => c
  | c, .write p c' :: l => lastWritten path (if p = path then c' else c) l
  | c, _ :: l => lastWritten path c l

/-- **C124** (files). At every time a path stands for what was last written to that file, whatever else happened - calls,
changes of tables and writes to other files included. -/
theorem files_as_last_written [MulZeroOneClass V] (env : Env V) (read : ReadCsv C V) (s : FileSession C V)
    (l : List (FileEvent C V)) (path : String) :
    (fileSession env read s l).files path = lastWritten path (s.files path) l := by
  induction l generalizing s with
  | nil => rfl
  | cons e l ih =>
    refine (ih (fileEvent env read s e)).trans ?_
    have hmine : ∀ i f, (changeMine env s i f).files = s.files := by
      intro i f
      unfold changeMine
      split <;> rfl
    cases e with
    | lib c => exact congrArg (fun f : String → Option C => lastWritten path (f path) l) (fileCall_frame env read c s).1
    | newTable df => rfl
    | setColumn i c x => exact congrArg (fun f : String → Option C => lastWritten path (f path) l) (hmine i _)
    | takeRows i rows => exact congrArg (fun f : String → Option C => lastWritten path (f path) l) (hmine i _)
    | write p c =>
      simp only [lastWritten, fileEvent]
      congr 1
      by_cases h : p = path
      · subst h; simp
      · rw [if_neg h, Function.update_of_ne (Ne.symm h)]

/-- Two files written one after the other, and the first one again. -/
example [MulZeroOneClass V] (env : Env V) (read : ReadCsv ℕ V) (s : FileSession ℕ V) :
    (fileSession env read s [.write "a.csv" (some 1), .write "b.csv" (some 2), .write "a.csv" (some 3)]).files "a.csv" =
        some 3 ∧
      (fileSession env read s [.write "a.csv" (some 1), .write "b.csv" (some 2), .write "a.csv" (some 3)]).files "b.csv" =
        some 2 := by
  constructor <;> rw [files_as_last_written] <;> simp [lastWritten]

/-- Calls that are given a path, or no data. -/
def Spec.NamesFile : FileCall V → Prop
  | .create _ data _ => ∃ path, data = .str path
  | .predict _ data => ∃ path, data = .str path
  | .panelPredict _ data _ _ => ∃ path, data = .str path
  | .fit _ => True

theorem withDataframe_path [MulZeroOneClass V] (read : ReadCsv C V) (path : String) (s : FileSession C V)
    (f : ℕ → Session V → Session V) (h2 : ∀ i u t, i ≠ t → (f i u).tables[t]? = u.tables[t]?) {t : ℕ}
    (ht : t < s.heap.tables.length) :
    (withDataframe read (.str path) s f).heap.tables[t]? = s.heap.tables[t]? := by
  unfold withDataframe
  split
  · rfl
  · rename_i i s' hg
    rcases getDataframe_ok hg with ⟨path, df, -, -, rfl, rfl⟩ | ⟨-, -, k, hk, -⟩
    · simp only
      rw [h2 _ _ t (by omega)]
      simp [List.getElem?_append_left ht]
    · cases hk

/-- **C124** (the caller's tables). Calls that are given paths leave every table of the caller exactly as it is, also
when the specification names an `intercept` that the file does not have. -/
theorem paths_leave_tables [MulZeroOneClass V] {env : Env V} {read : ReadCsv C V} {s : FileSession C V}
    (hs : Arises env read s) {l : List (FileCall V)} (hl : ∀ c ∈ l, NamesFile c) (i : ℕ) :
    callersTable (fileSession env read s (l.map .lib)) i = callersTable s i := by
  have hw := arises_placed hs
  clear hs
  induction l generalizing s with
  | nil => rfl
  | cons c l ih =>
    obtain ⟨-, h2, h3, -, -⟩ := fileCall_frame env read c s
    have hw' : WellPlaced (fileCall env read c s) := fun j hj => by
      rw [h2] at hj
      exact (hw j hj).trans_le h3
    refine (ih (s := fileCall env read c s) (fun c hc => hl c (List.mem_cons_of_mem _ hc)) hw').trans ?_
    unfold callersTable
    rw [h2]
    cases hk : s.mine[i]? with
    | none => rfl
    | some j =>
      have hj := hw j (List.mem_of_getElem? hk)
      simp only [Option.bind_some]
      have hc := hl c (by simp)
      cases c with
      | create ty data a =>
        obtain ⟨path, rfl⟩ := hc
        simp only [fileCall]
        split
        · rfl
        · exact withDataframe_path read path s _ (fun i u t h => (libCall_other env u h).1 ty a) hj
      | predict m data =>
        obtain ⟨path, rfl⟩ := hc
        exact withDataframe_path read path s _ (fun i u t h => (libCall_other env u h).2.1 m) hj
      | panelPredict m data rl cc =>
        obtain ⟨path, rfl⟩ := hc
        simp only [fileCall]
        split_ifs
        · rfl
        · exact withDataframe_path read path s _ (fun i u t h => (libCall_other env u h).2.2 m rl cc) hj
      | fit m => rfl

/-- **C124** (failures). If the data stands for an exception, or building the model raises one before or while looking
at it, the session is as before: no table and no model appears. -/
theorem failed_data_changes_nothing [MulZeroOneClass V] {env : Env V} {read : ReadCsv C V} {s : FileSession C V}
    (hs : Arises env read s) {data : DataArg} {e : Err} (h : Denotes read s data (.error e)) :
    (∀ ty a, fileCall env read (.create ty data a) s = s) ∧ (∀ m, fileCall env read (.predict m data) s = s) ∧
      ∀ m rl cc, fileCall env read (.panelPredict m data rl cc) s = s := by
  obtain ⟨h1, -⟩ := getDataframe_denotes (arises_placed hs) h
  have hk : ∀ f, withDataframe read data s f = s := by
    intro f
    simp [withDataframe, h1 e rfl]
  refine ⟨fun ty a => ?_, fun m => hk _, fun m rl cc => ?_⟩
  · simp only [fileCall]
    split
    · rfl
    · exact hk _
  · simp only [fileCall]
    split_ifs
    · rfl
    · exact hk _

/-- **C124** (the new model). Building a model adds it to the session if it does not raise, and no model otherwise. -/
theorem create_adds_model [MulZeroOneClass V] {env : Env V} {read : ReadCsv C V} {s : FileSession C V}
    (ty : String) (data : DataArg) (a : ModelArgs V) :
    (∀ m, createFrom env read ty data a s = .ok m →
      ∃ t, (fileCall env read (.create ty data a) s).heap.models = s.heap.models ++ [(t, m)]) ∧
    ∀ e, createFrom env read ty data a s = .error e →
      (fileCall env read (.create ty data a) s).heap.models = s.heap.models := by
  have hg : ∀ i s', getDataframe read data s = .ok (i, s') → s'.heap.models = s.heap.models := by
    intro i s' h
    rcases getDataframe_ok h with ⟨_, _, -, -, -, rfl⟩ | ⟨-, rfl, -⟩ <;> rfl
  cases hc : checksBeforeData ty a with
  | error e => simp [createFrom, fileCall, hc, bind, Except.bind]
  | ok _ =>
    cases hd : getDataframe read data s with
    | error e => simp [createFrom, fileCall, withDataframe, hc, hd, bind, Except.bind]
    | ok p =>
      obtain ⟨i, s'⟩ := p
      have hmod := hg i s' hd
      cases ht : s'.heap.tables[i]? with
      | none => simp [createFrom, fileCall, withDataframe, hc, hd, ht, libCall, hmod, bind, Except.bind]
      | some df =>
        cases hm : createChoiceModel env ty df a with
        | error e => simp [createFrom, fileCall, withDataframe, hc, hd, ht, hm, libCall, hmod, bind, Except.bind]
        | ok m =>
          simp [createFrom, fileCall, withDataframe, hc, hd, ht, hm, libCall, hmod, bind, Except.bind]

/-- **C124** (models built from files are independent). A fit of a model that was built from a file reads the design
matrix of the model, and the ids and choices that were in the file when the model was built: whatever happens
afterwards, that the file is overwritten or removed, that the caller changes any of its tables, that other models
are built from the same file, that predictions are made. -/
theorem file_model_is_independent [MulZeroOneClass V] {env : Env V} {read : ReadCsv C V} {s : FileSession C V}
    (hs : Arises env read s) {stem ty : String} {a : ModelArgs V} {df : Frame V} {m : ChoiceModel V}
    (hf : read (s.files (stem ++ ".csv")) = .ok df)
    (hm : createFrom env read ty (.str (stem ++ ".csv")) a s = .ok m) (l : List (FileEvent C V)) :
    ∃ x, (fileSession env read (fileCall env read (.create ty (.str (stem ++ ".csv")) a) s) l).heap.fitInputs
        s.heap.models.length = some x ∧
      x.design = m.design.map List.ofFn ∧
      x.choices = df.colList a.choiceCol ∧ x.altIds = df.colList a.altIdCol ∧
      x.mapObs = df.colList a.obsIdCol ∧ x.mapAlts = df.colList a.altIdCol ∧
      x.mapChoices = df.colList a.choiceCol := by
  have hw := arises_placed hs
  have hm' := hm
  rw [(create_from_data hs (.csv stem) ty a).2.2 df hf] at hm'
  have hg : FirstChecks ty a := by
    by_contra hn
    rw [create_not_checked env hn] at hm'
    cases hm'
  set u : Session V := { s.heap with tables := s.heap.tables ++ [df] } with hu
  have hcall : fileCall env read (.create ty (.str (stem ++ ".csv")) a) s =
      { s with heap := libCall env (.create ty s.heap.tables.length a) u } := by
    have hsuf : ".csv".toList <:+ (stem ++ ".csv").toList := suffix_iff.2 ⟨stem, rfl⟩
    simp only [fileCall, (checksBeforeData_eq ty a).1 hg, withDataframe, getDataframe, if_pos hsuf, hf, bind,
      Except.bind]
    rfl
  have ht : u.tables[s.heap.tables.length]? = some df := by simp [hu]
  obtain ⟨x, hx, rest⟩ := fresh_fit_reads_the_table ht hm'
  refine ⟨x, ?_, rest⟩
  rw [hcall]
  set w : FileSession C V := { s with heap := libCall env (.create ty s.heap.tables.length a) u } with hwdef
  have hlen : s.heap.tables.length < w.heap.tables.length := by
    simp [hwdef, libCall_tables_length, hu]
  have hnot : s.heap.tables.length ∉ w.mine := fun h => lt_irrefl _ (hw _ h)
  obtain ⟨f1, -, f3⟩ := fileSession_frame env read l w
  have hx' : w.heap.fitInputs s.heap.models.length = some x := hx
  have hmods : w.heap.models[s.heap.models.length]? = some (s.heap.tables.length, m) := by
    simp [hwdef, libCall, ht, hm', hu]
  rw [← hx']
  unfold Session.fitInputs
  rw [hmods, f3 _ _ hmods]
  simp only
  rw [f1 _ hlen hnot]

/-! ## A concrete session -/

/-- A reader for files whose content is given as a table; a missing file raises (`FileNotFoundError`, an error that is
not distinguished from the others here). -/
def exRead : ReadCsv (Frame ℤ) ℤ
  | some df => .ok df
  | none => .error .valueError

/-- A session with a file `trips.csv` and a table of the caller with the same content. -/
def exFiles : FileSession (Frame ℤ) ℤ :=
  fileSession exEnv exRead (freshSession fun p => if p = "trips.csv" then some exSessionTable else none)
    [.newTable exSessionTable]

example : Arises exEnv exRead exFiles := ⟨_, _, rfl⟩

/-- The hypotheses of `file_as_good_as_table` and `file_model_is_independent` are met. -/
example : exRead (exFiles.files ("trips" ++ ".csv")) = .ok exSessionTable ∧ callersTable exFiles 0 = some exSessionTable ∧
    (createFrom exEnv exRead "MNL" (.str ("trips" ++ ".csv")) exInterceptArgs exFiles).toOption.isSome = true := by
  refine ⟨rfl, rfl, ?_⟩
  decide

/-- Building the model from the caller's table adds a column to it; building it from the file does not. -/
example : ((callersTable (fileCall exEnv exRead (.create "MNL" (.table 0) exInterceptArgs) exFiles) 0).map
      fun d => d.columns) = some ["alt", "obs", "y", "x", "intercept"] ∧
    ((callersTable (fileCall exEnv exRead (.create "MNL" (.str "trips.csv") exInterceptArgs) exFiles) 0).map
      fun d => d.columns) = some ["alt", "obs", "y", "x"] := by
  decide

/-- The suffix must be in lower case. -/
example : Denotes exRead exFiles (.str "trips.CSV") (.error .valueError) := by
  refine .notCsv fun stem h => ?_
  exact absurd (suffix_iff.2 ⟨stem, h⟩) (by decide)

/-- A history that changes everything a model built from a table depends on, and nothing of a model built from the
file: the caller sorts its table and overwrites the file. -/
example : ((fileSession exEnv exRead (fileCall exEnv exRead (.create "Cloglog" (.table 0) exSessionArgs) exFiles)
      [.takeRows 0 [1, 0], .write "trips.csv" none]).heap.fitInputs 0).map (fun x => (x.altIds, x.mapAlts)) =
        some ([1, 2], [2, 1]) ∧
    ((fileSession exEnv exRead (fileCall exEnv exRead (.create "Cloglog" (.str "trips.csv") exSessionArgs) exFiles)
      [.takeRows 0 [1, 0], .write "trips.csv" none]).heap.fitInputs 0).map (fun x => (x.altIds, x.mapAlts)) =
        some ([1, 2], [1, 2]) := by
  decide

end Pylogit
