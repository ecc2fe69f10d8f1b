import Mathlib.Tactic
import Verif.Spec.Saving

/-!
# Saved models (C104, C105)
-/

namespace Pylogit

open Spec

/-! ## Helper lemmas -/

private lemma runOps_append {B : Type} (a b : List (DiskOp B)) (d : Disk B) :
    runOps (a ++ b) d = runOps b (runOps a d) := by
  simp [runOps]

private lemma run_chunks {B : Type} (path : String) (cs : List (List B)) (d : Disk B) (old : List B)
    (h : d path = some old) :
    runOps (cs.map fun bs => DiskOp.append path bs) d
      = Function.update d path (some (old ++ cs.flatten)) := by
  induction cs generalizing d old with
  | nil => simp [runOps, ← h]
  | cons c cs ih =>
    have := ih (Function.update d path (some (old ++ c))) (old ++ c) (by simp)
    simp only [List.map_cons, runOps, List.foldl_cons, DiskOp.run, h, Option.getD_some] at this ⊢
    rw [this]
    simp

private lemma stopped_eq {M B : Type} (P : Pickler M B) (m : M) (path : String) (k : ℕ)
    (d : Disk B) :
    runOps ((pickleOps P m path).take (k + 1)) d
      = Function.update d path (some ((P.dump m).chunks.take k).flatten) := by
  have h := run_chunks path ((P.dump m).chunks.take k) (Function.update d path (some []))
    [] (by simp)
  rw [List.map_take] at h
  simp only [pickleOps, List.take_succ_cons]
  show runOps _ (Function.update d path (some [])) = _
  rw [h]
  simp

private lemma complete_eq {M B : Type} (P : Pickler M B) (m : M) (path : String) (d : Disk B) :
    runOps (pickleOps P m path) d
      = Function.update d path (some (P.dump m).chunks.flatten) := by
  have := stopped_eq P m path (P.dump m).chunks.length d
  rw [List.take_of_length_le (by simp [pickleOps]), List.take_length] at this
  exact this

/-! ## Names of files -/

/-- C104, names.  A string is saved under the documented name, every other argument is refused with
`ValueError`. -/
theorem save_name {V : Type} (arg : PyVal V) :
    (∀ s, arg = .str s → ∃ path, pickleArg arg = .ok path ∧ SavesTo s path) ∧
      ((∀ s, arg ≠ .str s) → pickleArg arg = .error .valueError) := by
  have key : ∀ s : String, ".pkl".toList <:+ s.toList ↔
      ∃ stem : List Char, s.toList = stem ++ ".pkl".toList := by
    intro s
    constructor
    · rintro ⟨t, ht⟩; exact ⟨t, ht.symm⟩
    · rintro ⟨t, ht⟩; exact ⟨t, ht.symm⟩
  refine ⟨?_, ?_⟩
  · rintro s rfl
    by_cases h : ".pkl".toList <:+ s.toList
    · exact ⟨s, by simp only [pickleArg, if_pos h], Or.inl ⟨rfl, (key s).mp h⟩⟩
    · exact ⟨s ++ ".pkl", by simp only [pickleArg, if_neg h], Or.inr ⟨rfl, fun hh => h ((key s).mpr hh)⟩⟩
  · intro h
    cases arg with
    | str s => exact absurd rfl (h s)
    | num a => rfl
    | list l => rfl
    | other => rfl

/-- Two different strings reach the same file exactly when one is the other with ".pkl" added. -/
theorem save_same_file_iff {V : Type} (a b : String) (hab : a ≠ b) :
    pickleArg (.str a : PyVal V) = pickleArg (.str b : PyVal V) ↔
      (b = a ++ ".pkl" ∧ ¬ ".pkl".toList <:+ a.toList) ∨
        (a = b ++ ".pkl" ∧ ¬ ".pkl".toList <:+ b.toList) := by
  have hs : ∀ s : String, ".pkl".toList <:+ (s ++ ".pkl").toList := fun s => by
    rw [String.toList_append]; exact List.suffix_append _ _
  have hinj : a ++ ".pkl" = b ++ ".pkl" → a = b := by
    intro h
    have := congrArg String.toList h
    rw [String.toList_append, String.toList_append] at this
    exact String.toList_inj.mp (List.append_cancel_right this)
  simp only [pickleArg]
  by_cases ha : ".pkl".toList <:+ a.toList <;> by_cases hb : ".pkl".toList <:+ b.toList
  · simp only [if_pos ha, if_pos hb, Except.ok.injEq]
    constructor
    · intro h; exact absurd h hab
    · rintro (⟨-, h⟩ | ⟨-, h⟩)
      · exact absurd ha h
      · exact absurd hb h
  · simp only [if_pos ha, if_neg hb, Except.ok.injEq]
    constructor
    · intro h; exact Or.inr ⟨h, hb⟩
    · rintro (⟨-, h⟩ | ⟨h, -⟩)
      · exact absurd ha h
      · exact h
  · simp only [if_neg ha, if_pos hb, Except.ok.injEq]
    constructor
    · intro h; exact Or.inl ⟨h.symm, ha⟩
    · rintro (⟨h, -⟩ | ⟨-, h⟩)
      · exact h.symm
      · exact absurd hb h
  · simp only [if_neg ha, if_neg hb, Except.ok.injEq]
    constructor
    · intro h; exact absurd (hinj h) hab
    · rintro (⟨h, -⟩ | ⟨h, -⟩)
      · exact absurd (h ▸ hs a) hb
      · exact absurd (h ▸ hs b) ha

/-! ## Histories of saves -/

/-- C104.  An accepted, completed save can be loaded as the object that was saved, and changes no
other file; a refused one changes nothing at all. -/
theorem save_load {M B V : Type} {P : Pickler M B} (hP : LawfulPickler P) (m : M) (arg : PyVal V)
    (d : Disk B) :
    (∀ path, pickleArg arg = .ok path →
      (toPickle P m arg d).2 = (P.dump m).raises ∧
      ((toPickle P m arg d).2 = none → P.loadFile (toPickle P m arg d).1 path = some m) ∧
      ∀ q, q ≠ path → (toPickle P m arg d).1 q = d q) ∧
    (∀ e, pickleArg arg = .error e → toPickle P m arg d = (d, some e)) := by
  refine ⟨fun path h => ?_, fun e h => ?_⟩
  · simp only [toPickle, h, complete_eq]
    refine ⟨trivial, fun hr => ?_, fun q hq => Function.update_of_ne hq _ _⟩
    simp only [Pickler.loadFile, Function.update_self, Option.bind_some]
    exact hP.roundtrip m hr
  · simp only [toPickle, h]

private lemma runSaves_fst {M B V : Type} (P : Pickler M B) (es : List (SaveEvent M V))
    (s : M × Disk B) : (runSaves P es s).1 = changesOnly es s.1 := by
  induction es generalizing s with
  | nil => rfl
  | cons e es ih => cases e <;> simp [runSaves, changesOnly, ih]

private lemma runSaves_append {M B V : Type} (P : Pickler M B) (a b : List (SaveEvent M V))
    (s : M × Disk B) : runSaves P (a ++ b) s = runSaves P b (runSaves P a s) := by
  induction a generalizing s with
  | nil => rfl
  | cons e es ih => cases e <;> simp [runSaves, ih]

private lemma runSaves_other {M B V : Type} (P : Pickler M B) (es : List (SaveEvent M V))
    (s : M × Disk B) (path : String)
    (h : ∀ arg, SaveEvent.save arg ∈ es → pickleArg arg ≠ .ok path) :
    (runSaves P es s).2 path = s.2 path := by
  induction es generalizing s with
  | nil => rfl
  | cons e es ih =>
    have ih' := fun s => ih s fun arg ha => h arg (by simp [ha])
    cases e with
    | change f => exact ih' _
    | save arg =>
      simp only [runSaves]
      rw [ih']
      have := h arg (by simp)
      unfold toPickle
      split
      · rfl
      · rename_i q hq
        simp only [complete_eq]
        exact Function.update_of_ne (fun hpq => this (by rw [hq, hpq])) _ _

/-- C104, for histories.  Whatever happens to the object before and after, and whatever else is
saved elsewhere: a file holds the object as it was at the last save to that file. -/
theorem save_snapshot {M B V : Type} {P : Pickler M B} (hP : LawfulPickler P)
    (before after : List (SaveEvent M V)) (arg : PyVal V) (path : String) (m : M) (d : Disk B)
    (harg : pickleArg arg = .ok path)
    (hok : (P.dump (changesOnly before m)).raises = none)
    (hafter : ∀ a, SaveEvent.save a ∈ after → pickleArg a ≠ .ok path) :
    P.loadFile (runSaves P (before ++ .save arg :: after) (m, d)).2 path
      = some (changesOnly before m) := by
  rw [runSaves_append]
  simp only [runSaves, Pickler.loadFile]
  rw [runSaves_other P after _ path hafter, runSaves_fst]
  have h := ((save_load hP (changesOnly before m) arg (runSaves P before (m, d)).2).1 path harg)
  exact h.2.1 (h.1.trans hok)

/-- A file to which nothing is saved keeps its content through every history. -/
theorem save_elsewhere {M B V : Type} (P : Pickler M B) (es : List (SaveEvent M V)) (m : M)
    (d : Disk B) (path : String)
    (h : ∀ arg, SaveEvent.save arg ∈ es → pickleArg arg ≠ .ok path) :
    (runSaves P es (m, d)).2 path = d path := runSaves_other P es (m, d) path h

/-! ## Interrupted saves -/

/-- C105, what does hold.  Stopped after any number `k` of disk operations, a save has changed no
other file (a refused name has no file of its own), and its own file is as before (`k = 0`) or holds a beginning of the new content; so it
loads as the old object, as the new one, or not at all.  Missing: that the old object can still be
loaded unless the new one can, which is false, see `save_not_atomic`. -/
theorem save_interrupted_partial {M B V : Type} {P : Pickler M B} (hP : LawfulPickler P) (m : M)
    (arg : PyVal V) (k : ℕ) (d : Disk B) :
    (∀ q, pickleArg arg ≠ .ok q → toPickleStopped P m arg k d q = d q) ∧
    ∀ path, pickleArg arg = .ok path →
      (k = 0 → toPickleStopped P m arg k d = d) ∧
      (k ≠ 0 → ∃ bs, toPickleStopped P m arg k d path = some bs ∧
        bs <+: (P.dump m).chunks.flatten) ∧
      (P.loadFile (toPickleStopped P m arg k d) path = P.loadFile d path ∨
        P.loadFile (toPickleStopped P m arg k d) path = none ∨
        P.loadFile (toPickleStopped P m arg k d) path = some m) := by
  unfold toPickleStopped
  cases harg : pickleArg arg with
  | error e => exact ⟨fun q _ => rfl, fun path h => by cases h⟩
  | ok path' =>
  refine ⟨fun q hq => ?_, fun path h => ?_⟩
  · have hq' : q ≠ path' := fun e => hq (by rw [e])
    simp only
    cases k with
    | zero => rfl
    | succ k =>
      rw [stopped_eq]
      exact Function.update_of_ne hq' _ _
  cases h
  simp only
  cases k with
  | zero => exact ⟨fun _ => rfl, fun h => absurd rfl h, Or.inl rfl⟩
  | succ k =>
    have hpre : ((P.dump m).chunks.take k).flatten <+: (P.dump m).chunks.flatten := by
      conv_rhs => rw [← List.take_append_drop k (P.dump m).chunks, List.flatten_append]
      exact List.prefix_append _ _
    rw [stopped_eq]
    refine ⟨fun h => absurd h (by simp), fun _ => ⟨_, by simp, hpre⟩, ?_⟩
    simp only [Pickler.loadFile, Function.update_self, Option.bind_some]
    by_cases he : ((P.dump m).chunks.take k).flatten = (P.dump m).chunks.flatten
    · rw [he]
      cases hr : (P.dump m).raises with
      | none => exact Or.inr (Or.inr (hP.roundtrip m hr))
      | some e => exact Or.inr (Or.inl (hP.aborted m (by simp [hr])))
    · exact Or.inr (Or.inl (hP.truncated m _ hpre he))

/-- C105 is false of the code, for every object, every name and every disk: a save stopped right
after the file was opened has destroyed the model that was saved there before, and the new one
cannot be loaded either (its pickle is not empty). -/
theorem save_not_atomic {M B V : Type} {P : Pickler M B} (hP : LawfulPickler P) (m : M)
    (arg : PyVal V) (path : String) (harg : pickleArg arg = .ok path)
    (hne : (P.dump m).chunks.flatten ≠ []) (d : Disk B) :
    P.loadFile (toPickleStopped P m arg 1 d) path = none := by
  unfold toPickleStopped
  rw [harg]
  simp only [stopped_eq P m path 0 d]
  simp only [Pickler.loadFile, Function.update_self, Option.bind_some, List.take_zero,
    List.flatten_nil]
  exact hP.truncated m [] (List.nil_prefix) (fun h => hne h.symm)

/-- Nor does the process have to be stopped: when the object cannot be pickled, `to_pickle` raises
and the earlier file is lost. -/
theorem failed_save_destroys {M B V : Type} {P : Pickler M B} (hP : LawfulPickler P) (m : M)
    (arg : PyVal V) (path : String) (harg : pickleArg arg = .ok path) (e : Err)
    (hr : (P.dump m).raises = some e) (d : Disk B) :
    (toPickle P m arg d).2 = some e ∧ P.loadFile (toPickle P m arg d).1 path = none := by
  simp only [toPickle, harg, complete_eq, Pickler.loadFile, Function.update_self,
    Option.bind_some]
  exact ⟨hr, hP.aborted m (by simp [hr])⟩

/-! ## Concrete cases -/

/-- A pickler for numbers: `n` is written as `n` times `true`, then `false`; the number 7 cannot be
pickled. -/
def exPickler : Pickler ℕ Bool where
  dump n := if n = 7 then ⟨[List.replicate 7 true], some .typeError⟩
    else ⟨[List.replicate n true, [false]], none⟩
  load bs := if bs = List.replicate (bs.length - 1) true ++ [false] ∧ bs.length ≠ 8
    then some (bs.length - 1) else none

theorem exPickler_lawful : LawfulPickler exPickler := by
  have nofalse : ∀ (n : ℕ) (bs : List Bool), bs <+: List.replicate n true →
      exPickler.load bs = none := by
    intro n bs h
    simp only [exPickler, ite_eq_right_iff, reduceCtorEq, imp_false, not_and]
    intro hb
    exfalso
    have : false ∈ List.replicate n true := h.subset (by rw [hb]; simp)
    simp at this
  refine ⟨?_, ?_, ?_⟩
  · intro n h
    by_cases hn : n = 7
    · simp [exPickler, hn] at h
    · simp [exPickler, hn]
  · intro n bs h hne
    by_cases hn : n = 7
    · simp only [exPickler, hn, if_true, List.flatten_cons, List.flatten_nil, List.append_nil] at h
      exact nofalse 7 bs h
    · simp only [exPickler, hn, if_false, List.flatten_cons, List.flatten_nil,
        List.append_nil] at h hne
      rcases List.prefix_concat_iff.mp h with h | h
      · exact absurd h hne
      · exact nofalse n bs h
  · intro n h
    by_cases hn : n = 7
    · simp only [hn]
      apply nofalse 7
      simp [exPickler]
    · simp [exPickler, hn] at h

/-- Non-vacuity of `save_snapshot` and `save_interrupted_partial`: a number saved, changed, saved
again under a name that reaches the same file, changed, and saved elsewhere. -/
example : exPickler.loadFile (runSaves (V := ℕ) exPickler [.save (.str "m"), .change (· + 1),
    .save (.str "m.pkl"), .change (· + 1), .save (.str "other")] (3, fun _ => none)).2 "m.pkl"
      = some 4 := by
  have h : ∀ s : String, ".pkl".toList <:+ s.toList → pickleArg (.str s : PyVal ℕ) = .ok s :=
    fun s hs => if_pos hs
  have h1 : pickleArg (.str "m.pkl" : PyVal ℕ) = .ok "m.pkl" := h _ (by decide)
  have h2 : pickleArg (.str "other" : PyVal ℕ) = .ok "other.pkl" := by
    have : ¬ ".pkl".toList <:+ "other".toList := by decide
    simp only [pickleArg, if_neg this]
    rfl
  refine save_snapshot exPickler_lawful [.save (.str "m"), .change (· + 1)]
    [.change (· + 1), .save (.str "other")] (.str "m.pkl") "m.pkl" 3 _ h1 (by
      simp [changesOnly, exPickler]) ?_
  intro a ha
  simp only [List.mem_cons, reduceCtorEq, SaveEvent.save.injEq, List.not_mem_nil, or_false,
    false_or] at ha
  subst ha
  rw [h2]
  simp

/-- `save_not_atomic` on a disk that holds a model: before the save it loads, afterwards nothing
does. -/
example : exPickler.loadFile (fun _ => some [true, true, false]) "m.pkl" = some 2 ∧
    exPickler.loadFile (toPickleStopped exPickler 3 (.str "m.pkl" : PyVal ℕ) 1
      (fun _ => some [true, true, false])) "m.pkl" = none := by
  refine ⟨by simp [Pickler.loadFile, exPickler], ?_⟩
  have h : pickleArg (.str "m.pkl" : PyVal ℕ) = .ok "m.pkl" := by
    have : ".pkl".toList <:+ "m.pkl".toList := by decide
    simp only [pickleArg, if_pos this]
  exact save_not_atomic exPickler_lawful 3 _ _ h (by simp [exPickler]) _

/-- `failed_save_destroys` on the same disk. -/
example : (exPickler.dump 7).raises = some .typeError := by simp [exPickler]

end Pylogit
