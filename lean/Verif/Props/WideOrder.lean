import Verif.Props.RoundTrip

/-!
# C11: which orders of the availability dictionary give the documented table

`convert_wide_to_long` pairs the availability columns, in dictionary order, with the alternative ids, in
ascending order.  This file says exactly when that is harmless.
-/

namespace Pylogit

open Spec

variable {V : Type} [LinearOrder V]

private lemma mem_grid [Semiring V] [Nontrivial V] {w : Frame V} {indVars : List String}
    {altSpecific : List (String × List (V × String))} {avail s : List (V × String)} {obsCol choiceCol : String}
    (hlen : s.length = avail.length) (h01 : ZeroOneAvail w avail)
    (hsort : npSort (npUnique (w.colList choiceCol)) = s.map Prod.fst) {row : LongRow V} :
    row ∈ wideGridRows w indVars altSpecific avail obsCol choiceCol ↔
      ∃ i, ∃ j, ∃ (hj : j < avail.length), w.val avail[j].2 i = 1 ∧
        row = longRow w indVars altSpecific obsCol choiceCol i (s[j]'(hlen ▸ hj)).1 := by
  simp only [wideGridRows, hsort, List.mem_flatMap, List.mem_finRange, true_and, List.mem_filterMap]
  refine exists_congr fun i => ?_
  have hrow : ∀ a : V, (⟨w.val obsCol i, a, if w.val choiceCol i = a then 1 else 0,
      indVars.map fun v => w.val v i, altSpecific.map fun nc =>
        match nc.2.lookup a with
        | some c => w.val c i
        | none => 0⟩ : LongRow V) = longRow w indVars altSpecific obsCol choiceCol i a := by
    intro a
    simp only [longRow, LongRow.mk.injEq, true_and]
    refine List.map_congr_left fun nc _ => ?_
    cases nc.2.lookup a <;> rfl
  constructor
  · rintro ⟨⟨c, a⟩, hm, h⟩
    obtain ⟨j, hj, e⟩ := List.mem_iff_getElem.1 hm
    simp only [List.length_zip, List.length_map, lt_inf_iff] at hj
    simp only [List.getElem_zip, List.getElem_map, Prod.mk.injEq] at e
    obtain ⟨rfl, rfl⟩ := e
    have h0 : w.val avail[j].2 i ≠ 0 := by
      intro h0
      simp [h0] at h
    rw [if_pos h0] at h
    have h1 := (h01 _ (List.getElem_mem hj.1) i).resolve_left h0
    refine ⟨j, hj.1, h1, ?_⟩
    simp only [h1, one_mul, Option.some.injEq] at h
    rw [← h]
    exact hrow _
  · rintro ⟨j, hj, h1, rfl⟩
    refine ⟨(avail[j].2, (s[j]'(hlen ▸ hj)).1), ?_, ?_⟩
    · rw [List.mem_iff_getElem]
      exact ⟨j, by simp [hj, hlen], by simp⟩
    · rw [if_pos (by rw [h1]; exact one_ne_zero)]
      simp only [h1, one_mul, Option.some.injEq]
      exact hrow _

/-- **C11** (exactly when). Let the availability cells be 0/1 and the conversion succeed, and let `s` be the
availability dictionary sorted by alternative id.  The following are equivalent: the returned rows are exactly the
documented ones, one for each observation and alternative available to it; they are these rows in the documented
order; and in every row of the wide table, the availability cells read in dictionary order are the cells read in
ascending order of the ids. -/
theorem wide_to_long_right_iff [Semiring V] [Nontrivial V] {isNull : V → Bool} {w : Frame V}
    {indVars : List String} {altSpecific : List (String × List (V × String))}
    {avail s : List (V × String)} {obsCol choiceCol : String} {rows : List (LongRow V)}
    (hperm : s.Perm avail) (hs : SortedKeys s) (h01 : ZeroOneAvail w avail)
    (h : convertWideToLong isNull w indVars altSpecific avail obsCol choiceCol = .ok rows) :
    List.TFAE [
      ∀ row, row ∈ rows ↔ ∃ i, ∃ ac ∈ avail, w.val ac.2 i = 1 ∧
        row = longRow w indVars altSpecific obsCol choiceCol i ac.1,
      rows = (List.finRange w.numRows).flatMap fun i => (s.filter fun ac => decide (w.val ac.2 i = 1)).map
        fun ac => longRow w indVars altSpecific obsCol choiceCol i ac.1,
      ∀ i, (avail.map fun ac => w.val ac.2 i) = s.map fun ac => w.val ac.2 i] := by
  obtain ⟨hinj, hm, -, rfl⟩ := convertWideToLong_ok h
  have hlen := hperm.length_eq
  have hsort : npSort (npUnique (w.colList choiceCol)) = s.map Prod.fst :=
    sortedAltIds_eq hs fun a => by rw [← hm a, (hperm.map Prod.fst).mem_iff]
  have hk : (s.map Prod.fst).Nodup := hs.imp fun h => ne_of_lt h
  have key : ∀ {j k : ℕ} (hj : j < s.length) (hk' : k < s.length), s[j].1 = s[k].1 → j = k := by
    intro j k hj hk' e
    exact (List.Nodup.getElem_inj_iff hk (hi := by simpa using hj) (hj := by simpa using hk')).1 (by simpa using e)
  tfae_have 3 → 2 := by
    intro hc
    have hs01 : ZeroOneAvail w s := fun ac hac i => h01 ac (hperm.subset hac) i
    simp only [wideGridRows, hsort]
    refine List.flatMap_congr fun i _ => ?_
    rw [← grid_row_eq w indVars altSpecific s obsCol choiceCol i hs01]
    have hz : ((avail.map Prod.snd).zip (s.map Prod.fst)).map (fun ca => (w.val ca.1 i, ca.2)) =
        ((s.map Prod.snd).zip (s.map Prod.fst)).map fun ca => (w.val ca.1 i, ca.2) := by
      have : ∀ l : List String, (l.zip (s.map Prod.fst)).map (fun ca => (w.val ca.1 i, ca.2)) =
          (l.map fun c => w.val c i).zip (s.map Prod.fst) := by
        intro l
        rw [← List.map_id (s.map Prod.fst), List.zip_map, List.map_id]
        rfl
      rw [this, this, List.map_map, List.map_map]
      exact congrArg (List.zip · _) (hc i)
    have hf : ∀ l : List (String × V), l.filterMap (fun ca =>
        let a := w.val ca.1 i
        if a ≠ 0 then
          some { obs := a * w.val obsCol i
                 alt := a * ca.2
                 choice := if w.val choiceCol i = ca.2 then 1 else 0
                 ind := indVars.map fun v => a * w.val v i
                 spec := altSpecific.map fun nc =>
                   match nc.2.lookup ca.2 with
                   | some c => w.val c i
                   | none => 0 : LongRow V }
        else none) = (l.map fun ca => (w.val ca.1 i, ca.2)).filterMap fun aa =>
        if aa.1 ≠ 0 then
          some { obs := aa.1 * w.val obsCol i
                 alt := aa.1 * aa.2
                 choice := if w.val choiceCol i = aa.2 then 1 else 0
                 ind := indVars.map fun v => aa.1 * w.val v i
                 spec := altSpecific.map fun nc =>
                   match nc.2.lookup aa.2 with
                   | some c => w.val c i
                   | none => 0 : LongRow V }
        else none := by
      intro l
      rw [List.filterMap_map]
      rfl
    refine (hf _).trans (Eq.trans ?_ (hf _).symm)
    rw [hz]
  tfae_have 2 → 1 := by
    intro hr row
    rw [hr]
    simp only [List.mem_flatMap, List.mem_finRange, true_and, List.mem_map, List.mem_filter,
      decide_eq_true_eq, and_assoc]
    refine exists_congr fun i => exists_congr fun ac => ?_
    rw [hperm.mem_iff, eq_comm (a := row)]
  tfae_have 1 → 3 := by
    intro hset i
    refine List.ext_getElem (by simp [hlen]) fun j hj hj' => ?_
    simp only [List.length_map] at hj hj'
    simp only [List.getElem_map]
    have e : w.val avail[j].2 i = 1 ↔ w.val s[j].2 i = 1 := by
      constructor
      · intro h1
        obtain ⟨i', ac, hac, h1', e⟩ := (hset _).1 ((mem_grid (indVars := indVars) (altSpecific := altSpecific)
          (obsCol := obsCol) hlen h01 hsort).2 ⟨i, j, hj, h1, rfl⟩)
        have ei : i = i' := hinj (congrArg LongRow.obs e)
        have ea : s[j].1 = ac.1 := congrArg LongRow.alt e
        obtain ⟨k, hk', rfl⟩ := List.mem_iff_getElem.1 (hperm.mem_iff.2 hac)
        obtain rfl := key hj' hk' ea
        rw [ei]
        exact h1'
      · intro h1
        obtain ⟨i', k, hk', h1', e⟩ := (mem_grid hlen h01 hsort).1 ((hset _).2
          ⟨i, s[j], hperm.mem_iff.1 (List.getElem_mem hj'), h1, rfl⟩)
        have ei : i = i' := hinj (congrArg LongRow.obs e)
        have ea : s[j].1 = (s[k]'(hlen ▸ hk')).1 := congrArg LongRow.alt e
        obtain rfl := key hj' (hlen ▸ hk') ea
        rw [ei]
        exact h1'
    rcases h01 _ (List.getElem_mem hj) i with h0 | h1
    · rcases h01 _ (hperm.mem_iff.1 (List.getElem_mem hj')) i with h0' | h1'
      · rw [h0, h0']
      · rw [e.2 h1', h1']
    · rw [h1, e.1 h1]
  tfae_finish

/-- The rows as a list. -/
private lemma grid_list [Semiring V] [Nontrivial V] {w : Frame V} {indVars : List String}
    {altSpecific : List (String × List (V × String))} {avail s : List (V × String)} {obsCol choiceCol : String}
    (h01 : ZeroOneAvail w avail) (hsort : npSort (npUnique (w.colList choiceCol)) = s.map Prod.fst) :
    wideGridRows w indVars altSpecific avail obsCol choiceCol = (List.finRange w.numRows).flatMap fun i =>
      (((avail.zip s).filter fun p => decide (w.val p.1.2 i = 1)).map fun p => p.2.1).map
        (longRow w indVars altSpecific obsCol choiceCol i) := by
  simp only [wideGridRows, hsort]
  refine List.flatMap_congr fun i _ => ?_
  have hz : (avail.map Prod.snd).zip (s.map Prod.fst) = (avail.zip s).map fun p => (p.1.2, p.2.1) := by
    rw [List.zip_map]
    rfl
  rw [hz, List.filterMap_map, List.map_map, ← List.filterMap_eq_map, ← List.filterMap_eq_filter,
    List.filterMap_filterMap]
  refine List.filterMap_congr fun p hp => ?_
  obtain ⟨⟨k, c⟩, a⟩ := p
  have hmem := (List.of_mem_zip hp).1
  rcases h01 _ hmem i with h0 | h1
  · have h0' : w.val c i = 0 := h0
    simp [h0', Option.guard]
  · have h1' : w.val c i = 1 := h1
    have hg : Option.guard (fun p : (V × String) × V × String => decide (w.val p.1.2 i = 1)) ((k, c), a) =
        some ((k, c), a) := by simp [Option.guard, h1']
    rw [hg]
    simp only [Function.comp_apply, h1', ne_eq, one_ne_zero, not_false_eq_true, if_true, one_mul,
      Option.bind_some, Option.some.injEq]
    simp only [longRow, LongRow.mk.injEq, true_and]
    refine List.map_congr_left fun nc _ => ?_
    cases nc.2.lookup a.1 <;> rfl

/-- **C12** (exactly when). Under the same hypotheses, every observation has exactly one row with choice 1 if and
only if, for every observation, the availability column at the place of its choice among the ascending
alternative ids holds 1. -/
theorem wide_to_long_one_choice_iff [Semiring V] [Nontrivial V] {isNull : V → Bool} {w : Frame V}
    {indVars : List String} {altSpecific : List (String × List (V × String))}
    {avail s : List (V × String)} {obsCol choiceCol : String} {rows : List (LongRow V)}
    (hperm : s.Perm avail) (hs : SortedKeys s) (h01 : ZeroOneAvail w avail)
    (h : convertWideToLong isNull w indVars altSpecific avail obsCol choiceCol = .ok rows) :
    (∀ i, rows.countP (fun r => decide (r.obs = w.val obsCol i) && decide (r.choice = 1)) = 1) ↔
      ∀ i, ∃ p ∈ avail.zip s, p.2.1 = w.val choiceCol i ∧ w.val p.1.2 i = 1 := by
  obtain ⟨hinj, hm, -, rfl⟩ := convertWideToLong_ok h
  have hsort : npSort (npUnique (w.colList choiceCol)) = s.map Prod.fst :=
    sortedAltIds_eq hs fun a => by rw [← hm a, (hperm.map Prod.fst).mem_iff]
  have hk : (s.map Prod.fst).Nodup := hs.imp fun h => ne_of_lt h
  rw [grid_list h01 hsort]
  refine forall_congr' fun i => ?_
  let A : Fin w.numRows → List V := fun j =>
    ((avail.zip s).filter fun p => decide (w.val p.1.2 j = 1)).map fun p => p.2.1
  have hA : ∀ j, (A j).Nodup := by
    intro j
    have h2 : (avail.zip s).map (fun p => p.2.1) = s.map Prod.fst := by
      have : (avail.zip s).map (fun p => p.2.1) = ((avail.zip s).map Prod.snd).map Prod.fst := by
        rw [List.map_map]
        rfl
      rw [this, List.map_snd_zip]
      exact hperm.length_eq.le
    exact (h2 ▸ hk).sublist (List.filter_sublist.map _)
  have key : ((List.finRange w.numRows).flatMap fun j => (A j).map
      (longRow w indVars altSpecific obsCol choiceCol j)).countP
        (fun r => decide (r.obs = w.val obsCol i) && decide (r.choice = 1)) =
      if w.val choiceCol i ∈ A i then 1 else 0 := by
    rw [List.countP_flatMap]
    have : ∀ j, ((A j).map (longRow w indVars altSpecific obsCol choiceCol j)).countP
        (fun r => decide (r.obs = w.val obsCol i) && decide (r.choice = 1)) =
        if j = i then (if w.val choiceCol i ∈ A i then 1 else 0) else 0 := by
      intro j
      rw [List.countP_map]
      split_ifs with e1 e2
      · subst e1
        rw [← List.count_eq_one_of_mem (hA j) e2, List.count]
        refine List.countP_congr fun b _ => ?_
        by_cases e : w.val choiceCol j = b
        · simp [longRow, e]
        · simp [longRow, e, Ne.symm e]
      · subst e1
        rw [List.countP_eq_zero]
        intro b hb
        have : w.val choiceCol j ≠ b := fun e => e2 (e ▸ hb)
        simp [longRow, this]
      · rw [List.countP_eq_zero]
        intro b _
        have : w.val obsCol j ≠ w.val obsCol i := fun e' => e1 (hinj e')
        simp [longRow, this]
    simp only [Function.comp_def, this]
    rw [← Fin.sum_univ_def]
    simp
  rw [key]
  have hmem : w.val choiceCol i ∈ A i ↔ ∃ p ∈ avail.zip s, p.2.1 = w.val choiceCol i ∧ w.val p.1.2 i = 1 := by
    simp only [A, List.mem_map, List.mem_filter, decide_eq_true_eq]
    exact exists_congr fun p => by tauto
  rw [← hmem]
  split_ifs with e <;> simp [e]

private lemma mem_of_lookup_pair {l : List (V × String)} {a : V} {c : String} (h : l.lookup a = some c) :
    (a, c) ∈ l := by
  induction l with
  | nil => simp at h
  | cons p l ih =>
    rw [List.lookup_cons] at h
    by_cases e : a = p.1
    · subst e
      simp only [beq_self_eq_true, Option.some.injEq] at h
      subst h
      simp
    · have e' : (a == p.1) = false := by simpa using e
      rw [e'] at h
      exact List.mem_cons_of_mem _ (ih h)

/-- The checks of `convert_wide_to_long` do not depend on the order of the availability dictionary. -/
theorem convertWideToLong_perm [Semiring V] {isNull : V → Bool} {w : Frame V}
    {indVars : List String} {altSpecific : List (String × List (V × String))}
    {avail s : List (V × String)} {obsCol choiceCol : String} {rows : List (LongRow V)}
    (hperm : s.Perm avail) (hk : (avail.map Prod.fst).Nodup)
    (h : convertWideToLong isNull w indVars altSpecific avail obsCol choiceCol = .ok rows) :
    convertWideToLong isNull w indVars altSpecific s obsCol choiceCol =
      .ok (wideGridRows w indVars altSpecific s obsCol choiceCol) := by
  have hl : ∀ x, s.lookup x = avail.lookup x := by
    intro x
    have hks : (s.map Prod.fst).Nodup := (hperm.map Prod.fst).nodup_iff.2 hk
    refine Option.ext fun c => ?_
    constructor
    · intro e
      exact lookup_of_mem_nodup hk (hperm.mem_iff.1 (mem_of_lookup_pair e))
    · intro e
      exact lookup_of_mem_nodup hks (hperm.mem_iff.2 (mem_of_lookup_pair e))
  unfold convertWideToLong at h ⊢
  iterate 9 rw [bind_ok_iff] at h
  obtain ⟨h1, h2, h3, h4, h5, h6, h7, h8, h9, -⟩ := h
  iterate 9 rw [bind_ok_iff]
  refine ⟨h1, ensureColumns_ok.2 fun c hc => ensureColumns_ok.1 h2 c ((hperm.map Prod.snd).mem_iff.1 hc), h3, h4,
    h5, h6, ?_, ?_, ?_, rfl⟩
  · unfold ensureAllAltIdsChosen at h7 ⊢
    simp only at h7 ⊢
    split_ifs at h7 with g1 g2
    rw [not_not, List.filter_eq_nil_iff] at g1
    rw [if_neg, if_neg g2]
    rw [not_not, List.filter_eq_nil_iff]
    exact fun a ha => g1 a ((hperm.map Prod.fst).mem_iff.1 ha)
  · unfold ensureChosenInAltIds at h8 ⊢
    simp only [(hperm.map Prod.fst).mem_iff]
    exact h8
  · unfold ensureChoseAvailable at h9 ⊢
    have ha : ∀ i, (s.any fun ac => decide (w.val ac.2 i = 0)) = avail.any fun ac => decide (w.val ac.2 i = 0) :=
      fun i => hperm.any_eq
    simp only [hl, ha]
    exact h9

/-! ## Concrete tables -/

/-- Three observations; alternatives 1 and 2 are available to all, alternative 3 to the last two. -/
def exWideOrder : Frame ℤ where
  columns := ["id", "choice", "av1", "av2", "av3"]
  numRows := 3
  val := fun c => if c = "id" then ![10, 20, 30] else if c = "choice" then ![1, 2, 3]
    else if c = "av3" then ![0, 1, 1] else ![1, 1, 1]

/-- Non-vacuity of `wide_to_long_right_iff` and `wide_to_long_one_choice_iff`: an order that is not ascending and
harmless, and one that is not. -/
example :
    let s : List (ℤ × String) := [(1, "av1"), (2, "av2"), (3, "av3")]
    let good : List (ℤ × String) := [(2, "av2"), (1, "av1"), (3, "av3")]
    let bad : List (ℤ × String) := [(3, "av3"), (2, "av2"), (1, "av1")]
    s.Perm good ∧ s.Perm bad ∧ SortedKeys s ∧ ZeroOneAvail exWideOrder good ∧ ZeroOneAvail exWideOrder bad ∧
    (convertWideToLong (fun _ => false) exWideOrder [] [] good "id" "choice" =
      .ok [⟨10, 1, 1, [], []⟩, ⟨10, 2, 0, [], []⟩, ⟨20, 1, 0, [], []⟩, ⟨20, 2, 1, [], []⟩, ⟨20, 3, 0, [], []⟩,
        ⟨30, 1, 0, [], []⟩, ⟨30, 2, 0, [], []⟩, ⟨30, 3, 1, [], []⟩]) ∧
    (∀ i, (good.map fun ac => exWideOrder.val ac.2 i) = s.map fun ac => exWideOrder.val ac.2 i) ∧
    (∃ rows, convertWideToLong (fun _ => false) exWideOrder [] [] bad "id" "choice" = .ok rows) ∧
    ¬ ∀ i, (bad.map fun ac => exWideOrder.val ac.2 i) = s.map fun ac => exWideOrder.val ac.2 i := by
  refine ⟨by decide, by decide, by unfold SortedKeys; decide, ?_, ?_, by decide, ?_, ⟨_, rfl⟩, ?_⟩
  · intro ac hac i
    change Fin 3 at i
    simp only [List.mem_cons, List.not_mem_nil, or_false] at hac
    rcases hac with rfl | rfl | rfl <;> fin_cases i <;> simp [exWideOrder]
  · intro ac hac i
    change Fin 3 at i
    simp only [List.mem_cons, List.not_mem_nil, or_false] at hac
    rcases hac with rfl | rfl | rfl <;> fin_cases i <;> simp [exWideOrder]
  · intro i
    change Fin 3 at i
    fin_cases i <;> rfl
  · intro h
    have := h (0 : Fin 3)
    simp [exWideOrder] at this

end Pylogit
