import Mathlib.Algebra.Order.Ring.Int
import Mathlib.Algebra.Order.Group.Unbundled.Basic
import Mathlib.Tactic.Ring
import Verif.Model.Conversion
import Verif.Lemmas.Mappings
import Verif.Props.Design

/-!
# C10-C12: contiguity check and wide-to-long conversion
-/

set_option linter.unusedSectionVars false

namespace Pylogit

variable {V : Type} [LinearOrder V]

namespace Spec

/-- The rows of every observation are contiguous: between two rows with the same id there is no
row with another id. -/
def Contiguous (ids : List V) : Prop :=
  ∀ i j k (_ : i < j) (_ : j < k) (hk : k < ids.length),
    ids[i]'(by omega) = ids[k] → ids[j]'(by omega) = ids[k]

/-- The availability dictionary lists its alternatives in ascending order. -/
def SortedKeys (avail : List (V × String)) : Prop := (avail.map Prod.fst).Pairwise (· < ·)

/-- Every availability cell is 0 or 1. -/
def ZeroOneAvail [Zero V] [One V] (w : Frame V) (avail : List (V × String)) : Prop :=
  ∀ ac ∈ avail, ∀ i, w.val ac.2 i = 0 ∨ w.val ac.2 i = 1

/-- The long row that wide row `i` and alternative `a` should give. -/
def longRow [Zero V] [One V] (w : Frame V) (indVars : List String)
    (altSpecific : List (String × List (V × String))) (obsCol choiceCol : String)
    (i : Fin w.numRows) (a : V) : LongRow V where
  obs := w.val obsCol i
  alt := a
  choice := if w.val choiceCol i = a then 1 else 0
  ind := indVars.map fun v => w.val v i
  spec := altSpecific.map fun nc => ((nc.2.lookup a).map fun c => w.val c i).getD 0

end Spec

open Spec

/-! ## C10 -/

theorem ensureContiguity_ok [AddCommGroup V] [IsOrderedAddMonoid V] {ids : List V} :
    ensureContiguity ids = .ok () ↔ ids.Pairwise (· ≤ ·) := by
  have : (ensureContiguity ids = .ok ()) ↔
      ((ids.tail.zip ids.dropLast).map fun p => decide (0 ≤ p.1 - p.2)).all id = true := ite_ok
  rw [this]
  simp only [List.all_map, List.all_eq_true, Function.comp_apply, id, decide_eq_true_eq]
  rw [← List.isChain_iff_pairwise, List.isChain_iff_getElem]
  constructor
  · intro h i hi
    have := h (ids[i + 1], ids[i]) (by
      rw [List.mem_iff_getElem?]
      refine ⟨i, List.getElem?_zip_eq_some.2 ⟨?_, ?_⟩⟩
      · simp [hi]
      · rw [List.getElem?_dropLast]; simp; omega)
    exact sub_nonneg.1 this
  · rintro h ⟨x, y⟩ hp
    obtain ⟨i, hi⟩ := List.mem_iff_getElem?.1 hp
    obtain ⟨h1, h2⟩ := List.getElem?_zip_eq_some.1 hi
    simp only [List.getElem?_tail, List.getElem?_dropLast] at h1 h2
    obtain ⟨hlt, h1⟩ := List.getElem?_eq_some_iff.1 h1
    rw [if_pos (by omega)] at h2
    obtain ⟨_, h2⟩ := List.getElem?_eq_some_iff.1 h2
    subst h1 h2
    exact sub_nonneg.2 (h i hlt)

/-- **C10** (soundness). Every accepted id vector has contiguous observations. -/
theorem contiguity_sound_partial [AddCommGroup V] [IsOrderedAddMonoid V] (ids : List V)
    (h : ensureContiguity ids = .ok ()) : Contiguous ids := by
  rw [ensureContiguity_ok, List.pairwise_iff_getElem] at h
  intro i j k hij hjk hk e
  refine le_antisymm (h j k (by omega) hk hjk) ?_
  rw [← e]
  exact h i j (by omega) (by omega) hij

/-- **C10** (what it checks). Acceptance is exactly "ids never decrease". -/
theorem contiguity_iff_nondecreasing [AddCommGroup V] [IsOrderedAddMonoid V] (ids : List V) :
    ensureContiguity ids = .ok () ↔ ids.Pairwise (· ≤ ·) := ensureContiguity_ok

/-- **C10** (completeness fails). Contiguous observations are rejected when their ids decrease. -/
theorem contiguity_incomplete :
    Contiguous [2, 2, (1 : ℤ), 1] ∧ ensureContiguity [2, 2, (1 : ℤ), 1] = .error .valueError := by
  refine ⟨?_, by decide⟩
  intro i j k hij hjk hk e
  simp only [List.length_cons, List.length_nil] at hk
  obtain ⟨rfl, rfl, rfl⟩ | ⟨rfl, rfl, rfl⟩ | ⟨rfl, rfl, rfl⟩ | ⟨rfl, rfl, rfl⟩ :
      (i = 0 ∧ j = 1 ∧ k = 2) ∨ (i = 0 ∧ j = 1 ∧ k = 3) ∨ (i = 0 ∧ j = 2 ∧ k = 3) ∨
        (i = 1 ∧ j = 2 ∧ k = 3) := by omega
  all_goals simp at e ⊢

example : ensureContiguity [1, 1, (2 : ℤ), 5, 5] = .ok () := by decide

/-! ## Checks of `convert_wide_to_long` -/

theorem ensureUniqueObsIds_ok {w : Frame V} {obsCol : String} :
    ensureUniqueObsIds w obsCol = .ok () ↔ Function.Injective (w.val obsCol) := by
  have hl : (w.colList obsCol).length = w.numRows := by simp [Frame.colList]
  have h1 : (npUnique (w.colList obsCol)).length = (w.colList obsCol).dedup.length :=
    (npSort_perm _).length_eq
  have : ensureUniqueObsIds w obsCol = .ok () ↔
      (w.colList obsCol).dedup.length = (w.colList obsCol).length := by
    unfold ensureUniqueObsIds
    rw [ite_error, h1, hl, not_not]
  rw [this, ← List.nodup_ofFn]
  change _ ↔ (w.colList obsCol).Nodup
  constructor
  · intro h
    have := List.Sublist.eq_of_length (List.dedup_sublist (w.colList obsCol)) h
    exact this ▸ List.nodup_dedup _
  · intro h
    rw [List.Nodup.dedup h]

theorem mem_colList {w : Frame V} {c : String} {x : V} : x ∈ w.colList c ↔ ∃ i, w.val c i = x := by
  rw [Frame.colList, List.mem_ofFn]

/-- What acceptance means. -/
theorem convertWideToLong_ok [Semiring V] {isNull : V → Bool} {w : Frame V} {indVars : List String}
    {altSpecific : List (String × List (V × String))} {avail : List (V × String)}
    {obsCol choiceCol : String} {rows : List (LongRow V)}
    (h : convertWideToLong isNull w indVars altSpecific avail obsCol choiceCol = .ok rows) :
    Function.Injective (w.val obsCol) ∧
    (∀ a, a ∈ avail.map Prod.fst ↔ ∃ i, w.val choiceCol i = a) ∧
    (∀ i, (∃ ac ∈ avail, w.val ac.2 i = 0) →
      ∃ c, avail.lookup (w.val choiceCol i) = some c ∧ w.val c i = 1) ∧
    rows = wideGridRows w indVars altSpecific avail obsCol choiceCol := by
  unfold convertWideToLong at h
  iterate 9 rw [bind_ok_iff] at h
  obtain ⟨-, -, -, -, h1, -, h2, h3, h4, h5⟩ := h
  refine ⟨ensureUniqueObsIds_ok.1 h1, ?_, ?_, (Except.ok.inj h5).symm⟩
  · intro a
    unfold ensureAllAltIdsChosen at h2
    unfold ensureChosenInAltIds at h3
    simp only at h2
    constructor
    · intro ha
      split_ifs at h2 with g1 g2
      rw [not_not, List.filter_eq_nil_iff] at g1
      have := g1 a ha
      simp only [decide_eq_true_eq, not_not, npSort_npUnique, mem_npUnique, mem_colList] at this
      exact this
    · rintro ⟨i, rfl⟩
      split_ifs at h3 with g1
      simp only [List.all_eq_true, decide_eq_true_eq] at g1
      exact g1 _ (mem_colList.2 ⟨i, rfl⟩)
  · rintro i ⟨ac, hac, h0⟩
    unfold ensureChoseAvailable at h4
    split_ifs at h4 with g
    simp only [List.any_eq_true, not_exists, not_and, List.mem_finRange, true_and, Bool.and_eq_true,
      decide_eq_true_eq] at g
    have := g i ⟨ac, hac, h0⟩
    cases hl : avail.lookup (w.val choiceCol i) with
    | none => simp [hl] at this
    | some c => exact ⟨c, rfl, by simpa [hl] using this⟩

theorem sortedAltIds_eq {w : Frame V} {avail : List (V × String)} {choiceCol : String}
    (hs : SortedKeys avail) (hm : ∀ a, a ∈ avail.map Prod.fst ↔ ∃ i, w.val choiceCol i = a) :
    npSort (npUnique (w.colList choiceCol)) = avail.map Prod.fst :=
  altsOf_eq ⟨hs, hm⟩

/-! ## C11 -/

theorem grid_row_eq [Semiring V] (w : Frame V) (indVars : List String)
    (altSpecific : List (String × List (V × String))) (avail : List (V × String))
    (obsCol choiceCol : String) (i : Fin w.numRows) (h01 : ZeroOneAvail w avail) [Nontrivial V] :
    ((avail.map Prod.snd).zip (avail.map Prod.fst)).filterMap (fun ca =>
      let a := w.val ca.1 i
      if a ≠ 0 then
        some { obs := a * w.val obsCol i
               alt := a * ca.2
               choice := if w.val choiceCol i = ca.2 then 1 else 0
               ind := indVars.map fun v => a * w.val v i
               spec := altSpecific.map fun nc =>
                 match nc.2.lookup ca.2 with
                 | some c => w.val c i
                 | none => 0 : LongRow V }
      else none) =
    (avail.filter fun ac => decide (w.val ac.2 i = 1)).map fun ac =>
      longRow w indVars altSpecific obsCol choiceCol i ac.1 := by
  induction avail with
  | nil => rfl
  | cons ac avail ih =>
    have ih := ih fun x hx => h01 x (by simp [hx])
    simp only [List.map_cons, List.zip_cons_cons, List.filterMap_cons, List.filter_cons]
    rcases h01 ac (by simp) i with h | h
    · rw [h]
      simp only [ne_eq, not_true_eq_false, if_false, zero_ne_one, decide_false, Bool.false_eq_true]
      exact ih
    · rw [h]
      simp only [ne_eq, one_ne_zero, not_false_eq_true, if_true, decide_true, one_mul,
        List.map_cons, List.cons.injEq]
      refine ⟨?_, ih⟩
      simp only [longRow, LongRow.mk.injEq, true_and]
      refine List.map_congr_left fun nc _ => ?_
      cases nc.2.lookup ac.1 <;> rfl

/-- **C11** (what is true). With an availability dictionary in ascending key order and 0/1
availabilities, the returned rows are, observation by observation in input order, the available
alternatives of the observation in ascending order, each with the observation's id, the
alternative's id, choice 1 iff it is the observation's choice, the observation's individual
variables and the alternative's own variables (0 without a column). -/
theorem wide_to_long_rows_partial [Semiring V] [Nontrivial V] {isNull : V → Bool} {w : Frame V}
    {indVars : List String} {altSpecific : List (String × List (V × String))}
    {avail : List (V × String)} {obsCol choiceCol : String} {rows : List (LongRow V)}
    (hs : SortedKeys avail) (h01 : ZeroOneAvail w avail)
    (h : convertWideToLong isNull w indVars altSpecific avail obsCol choiceCol = .ok rows) :
    rows = (List.finRange w.numRows).flatMap fun i =>
      (avail.filter fun ac => decide (w.val ac.2 i = 1)).map fun ac =>
        longRow w indVars altSpecific obsCol choiceCol i ac.1 := by
  obtain ⟨-, hm, -, rfl⟩ := convertWideToLong_ok h
  simp only [wideGridRows]
  rw [sortedAltIds_eq hs hm]
  exact List.flatMap_congr fun i _ => grid_row_eq w indVars altSpecific avail obsCol choiceCol i h01

/-- **C11** (set form). A row is returned iff it is the long row of some observation and some
alternative available to it; and no (observation id, alternative id) pair occurs twice. -/
theorem wide_to_long_pairs_partial [Semiring V] [Nontrivial V] {isNull : V → Bool} {w : Frame V}
    {indVars : List String} {altSpecific : List (String × List (V × String))}
    {avail : List (V × String)} {obsCol choiceCol : String} {rows : List (LongRow V)}
    (hs : SortedKeys avail) (h01 : ZeroOneAvail w avail)
    (h : convertWideToLong isNull w indVars altSpecific avail obsCol choiceCol = .ok rows) :
    (∀ row, row ∈ rows ↔ ∃ i, ∃ ac ∈ avail, w.val ac.2 i = 1 ∧
      row = longRow w indVars altSpecific obsCol choiceCol i ac.1) ∧
    (rows.map fun r => (r.obs, r.alt)).Nodup := by
  have hr := wide_to_long_rows_partial hs h01 h
  obtain ⟨hinj, -, -, -⟩ := convertWideToLong_ok h
  subst hr
  constructor
  · intro row
    simp only [List.mem_flatMap, List.mem_finRange, true_and, List.mem_map, List.mem_filter,
      decide_eq_true_eq, and_assoc]
    constructor
    · rintro ⟨i, ac, h1, h2, rfl⟩; exact ⟨i, ac, h1, h2, rfl⟩
    · rintro ⟨i, ac, h1, h2, rfl⟩; exact ⟨i, ac, h1, h2, rfl⟩
  · rw [List.map_flatMap, List.nodup_flatMap]
    constructor
    · intro i _
      rw [List.map_map]
      have hk : ((avail.filter fun ac => decide (w.val ac.2 i = 1)).map Prod.fst).Nodup :=
        ((List.filter_sublist).map _).nodup (hs.imp fun h => ne_of_lt h)
      have : ((fun r : LongRow V => (r.obs, r.alt)) ∘ fun ac : V × String =>
          longRow w indVars altSpecific obsCol choiceCol i ac.1) =
          (fun a => (w.val obsCol i, a)) ∘ Prod.fst := rfl
      rw [this, ← List.map_map]
      exact hk.map fun a b e => (Prod.mk.inj e).2
    · refine (List.nodup_finRange _).imp ?_
      intro i j hij
      rw [Function.onFun, List.disjoint_left]
      rintro p hp hq
      simp only [List.mem_map] at hp hq
      obtain ⟨_, ⟨_, _, rfl⟩, rfl⟩ := hp
      obtain ⟨_, ⟨_, _, rfl⟩, e⟩ := hq
      exact hij (hinj (Prod.mk.inj e).1.symm)

/-! ## C12 -/

theorem countP_avail {V : Type} [LinearOrder V] {avail : List (V × String)}
    (hk : (avail.map Prod.fst).Nodup) {a : V} {c : String} (hl : avail.lookup a = some c)
    (p : V × String → Bool) (hp : p (a, c) = true) :
    avail.countP (fun ac => p ac && decide (ac.1 = a)) = 1 := by
  induction avail with
  | nil => simp at hl
  | cons x avail ih =>
    obtain ⟨b, d⟩ := x
    simp only [List.map_cons, List.nodup_cons] at hk
    by_cases e : a = b
    · subst e
      obtain rfl : d = c := by simpa using hl
      rw [List.countP_cons, hp]
      have : avail.countP (fun ac => p ac && decide (ac.1 = a)) = 0 := by
        rw [List.countP_eq_zero]
        intro ac hac
        have : ac.1 ≠ a := fun e => hk.1 (e ▸ List.mem_map.2 ⟨ac, hac, rfl⟩)
        simp [this]
      simp [this]
    · have e' : (a == b) = false := by simpa using e
      rw [List.lookup_cons, e'] at hl
      rw [List.countP_cons, ih hk.2 hl]
      simp [Ne.symm e]

/-- **C12** (what is true). With an availability dictionary in ascending key order and 0/1
availabilities, every observation has exactly one row with choice 1 in the returned table, and all
its other rows have choice 0. -/
theorem wide_to_long_one_choice_partial [Semiring V] [Nontrivial V] {isNull : V → Bool}
    {w : Frame V} {indVars : List String} {altSpecific : List (String × List (V × String))}
    {avail : List (V × String)} {obsCol choiceCol : String} {rows : List (LongRow V)}
    (hs : SortedKeys avail) (h01 : ZeroOneAvail w avail)
    (h : convertWideToLong isNull w indVars altSpecific avail obsCol choiceCol = .ok rows) :
    (∀ i, rows.countP (fun r => decide (r.obs = w.val obsCol i) && decide (r.choice = 1)) = 1) ∧
      ∀ r ∈ rows, r.choice = 0 ∨ r.choice = 1 := by
  have hr := wide_to_long_rows_partial hs h01 h
  obtain ⟨hinj, hm, hav, -⟩ := convertWideToLong_ok h
  have hk : (avail.map Prod.fst).Nodup := hs.imp fun h => ne_of_lt h
  subst hr
  constructor
  · intro i
    have hlook : ∃ c, avail.lookup (w.val choiceCol i) = some c ∧ w.val c i = 1 := by
      by_cases h0 : ∃ ac ∈ avail, w.val ac.2 i = 0
      · exact hav i h0
      · obtain ⟨ac, hac, e⟩ := List.mem_map.1 ((hm (w.val choiceCol i)).2 ⟨i, rfl⟩)
        refine ⟨ac.2, by rw [← e]; exact lookup_of_mem_nodup hk hac, ?_⟩
        exact (h01 ac hac i).resolve_left fun e => h0 ⟨ac, hac, e⟩
    obtain ⟨c, hc1, hc2⟩ := hlook
    rw [List.countP_flatMap]
    have : ∀ j, ((avail.filter fun ac => decide (w.val ac.2 j = 1)).map fun ac =>
        longRow w indVars altSpecific obsCol choiceCol j ac.1).countP
          (fun r => decide (r.obs = w.val obsCol i) && decide (r.choice = 1)) =
        if j = i then 1 else 0 := by
      intro j
      rw [List.countP_map, List.countP_filter]
      split_ifs with e
      · subst e
        have := countP_avail hk hc1 (fun ac => decide (w.val ac.2 j = 1)) (by simpa using hc2)
        rw [← this]
        refine List.countP_congr fun ac _ => ?_
        by_cases e : w.val choiceCol j = ac.1 <;> by_cases e2 : w.val ac.2 j = 1 <;>
          simp [longRow, e, e2, eq_comm]
      · rw [List.countP_eq_zero]
        intro ac _
        have : w.val obsCol j ≠ w.val obsCol i := fun e' => e (hinj e')
        simp [longRow, this]
    simp only [Function.comp_def, this]
    rw [← Fin.sum_univ_def]
    simp
  · intro r hr
    obtain ⟨i, -, hr⟩ := List.mem_flatMap.1 hr
    obtain ⟨ac, -, rfl⟩ := List.mem_map.1 hr
    simp only [longRow]
    split_ifs <;> simp

/-! ## Witnesses -/

/-- Two observations; the first has only alternative 1, the second has both. -/
def exWide : Frame ℤ where
  columns := ["id", "choice", "av1", "av2"]
  numRows := 2
  val := fun c => if c = "id" then ![10, 20] else if c = "choice" then ![1, 2]
    else if c = "av1" then ![1, 1] else ![0, 1]

/-- **C11** hypotheses on a concrete table, with the result. -/
theorem exWide_sorted : SortedKeys [((1 : ℤ), "av1"), (2, "av2")] ∧
    ZeroOneAvail exWide [((1 : ℤ), "av1"), (2, "av2")] ∧
    convertWideToLong (fun _ => false) exWide [] [] [(1, "av1"), (2, "av2")] "id" "choice" =
      .ok [⟨10, 1, 1, [], []⟩, ⟨20, 1, 0, [], []⟩, ⟨20, 2, 1, [], []⟩] := by
  refine ⟨by unfold SortedKeys; decide, ?_, by decide⟩
  intro ac hac i
  change Fin 2 at i
  simp only [List.mem_cons, List.not_mem_nil, or_false] at hac
  rcases hac with rfl | rfl <;> fin_cases i <;> simp [exWide]

/-- **C11, C12** (negation). The same table with the availability dictionary written in another key
order is accepted, and observation 10, to which only alternative 1 is available, gets a single row:
for alternative 2, and not chosen. -/
theorem wide_to_long_key_order :
    convertWideToLong (fun _ => false) exWide [] [] [(2, "av2"), (1, "av1")] "id" "choice" =
      .ok [⟨10, 2, 0, [], []⟩, ⟨20, 1, 0, [], []⟩, ⟨20, 2, 1, [], []⟩] := by decide

/-- A table whose availability cells are 2 instead of 1. -/
def exWide2 : Frame ℤ where
  columns := ["id", "choice", "av1", "av2"]
  numRows := 2
  val := fun c => if c = "id" then ![10, 20] else if c = "choice" then ![1, 2] else ![2, 2]

/-- **C11** (negation for non-0/1 availabilities). Such a table is accepted and its observation ids
and alternative ids are multiplied: observation 10 becomes 20 and alternatives 1, 2 become 2, 4. -/
theorem wide_to_long_scaled_ids :
    convertWideToLong (fun _ => false) exWide2 [] [] [(1, "av1"), (2, "av2")] "id" "choice" =
      .ok [⟨20, 2, 1, [], []⟩, ⟨20, 4, 0, [], []⟩, ⟨40, 2, 0, [], []⟩, ⟨40, 4, 1, [], []⟩] := by
  decide

end Pylogit
