import Verif.Model.Mappings
import Verif.Spec.Choice

/-! # Helper lemmas: dictionaries, unique ids, sparse mappings -/

namespace Pylogit

variable {ι V : Type} [LinearOrder ι]

theorem dictOfPairs_append {α β : Type} [DecidableEq α] (l : List (α × β)) (kv : α × β) :
    dictOfPairs (l ++ [kv]) = Function.update (dictOfPairs l) kv.1 (some kv.2) := by
  simp [dictOfPairs, List.foldl_append]

theorem dictOfPairs_none {α β : Type} [DecidableEq α] (l : List (α × β)) (k : α) :
    dictOfPairs l k = none ↔ k ∉ l.map Prod.fst := by
  induction l using List.reverseRecOn with
  | nil => simp [dictOfPairs]
  | append_singleton l kv ih =>
    rw [dictOfPairs_append]
    by_cases h : k = kv.1
    · subst h; simp
    · rw [Function.update_of_ne h, ih]
      simp [h]

theorem dictOfPairs_mem {α β : Type} [DecidableEq α] {l : List (α × β)} {k : α} {v : β}
    (h : dictOfPairs l k = some v) : (k, v) ∈ l := by
  induction l using List.reverseRecOn with
  | nil => simp [dictOfPairs] at h
  | append_singleton l kv ih =>
    rw [dictOfPairs_append] at h
    by_cases hk : k = kv.1
    · subst hk
      rw [Function.update_self] at h
      obtain rfl := Option.some.inj h
      simp
    · rw [Function.update_of_ne hk] at h
      exact List.mem_append_left _ (ih h)

theorem dictOfPairs_nodup {α β : Type} [DecidableEq α] {l : List (α × β)}
    (hl : (l.map Prod.fst).Nodup) (k : α) (v : β) : dictOfPairs l k = some v ↔ (k, v) ∈ l := by
  refine ⟨dictOfPairs_mem, fun h => ?_⟩
  cases hd : dictOfPairs l k with
  | none =>
    rw [dictOfPairs_none] at hd
    exact absurd (List.mem_map.2 ⟨_, h, rfl⟩) hd
  | some w =>
    have hw := dictOfPairs_mem hd
    rw [List.inj_on_of_nodup_map hl h hw rfl |> fun e => (Prod.mk.inj e).2]

theorem mem_zip_range {α : Type} (u : List α) (x : α) (i : ℕ) :
    (x, i) ∈ u.zip (List.range u.length) ↔ u[i]? = some x := by
  rw [List.mem_iff_getElem?]
  constructor
  · rintro ⟨j, hj⟩
    obtain ⟨h1, h2⟩ := List.getElem?_zip_eq_some.1 hj
    obtain ⟨hlt, h2⟩ := List.getElem?_eq_some_iff.1 h2
    simp only [List.getElem_range] at h2
    subst h2; exact h1
  · intro h
    obtain ⟨hi, _⟩ := List.getElem?_eq_some_iff.1 h
    exact ⟨i, List.getElem?_zip_eq_some.2 ⟨h, by simp [hi]⟩⟩

theorem zip_range_fst {α : Type} (u : List α) :
    (u.zip (List.range u.length)).map Prod.fst = u := by
  rw [List.map_fst_zip]; simp

/-- Entries of a sparse mapping whose column ids are distinct. -/
theorem sparseMapping_apply [Zero V] [One V] (ids uniq : List ι) (hu : uniq.Nodup)
    (r : Fin ids.length) (c : Fin uniq.length) :
    sparseMapping (V := V) ids uniq r c = if ids.get r = uniq.get c then 1 else 0 := by
  simp only [sparseMapping, Matrix.of_apply]
  simp only [dictOfPairs_nodup (l := uniq.zip (List.range uniq.length))
    (by rwa [zip_range_fst]), mem_zip_range]
  by_cases h : ids.get r = uniq.get c
  · rw [if_pos (h ▸ List.get_mem _ _), if_pos h, if_pos]
    rw [h]; simp
  · rw [if_neg h]
    split_ifs with h1 h2
    · exfalso; apply h
      rw [List.getElem?_eq_getElem c.2] at h2
      simpa using h2.symm
    · rfl
    · rfl

theorem lookup_of_mem_nodup {α β : Type} [DecidableEq α] {l : List (α × β)} (hn : (l.map Prod.fst).Nodup)
    {kv : α × β} (h : kv ∈ l) : l.lookup kv.1 = some kv.2 := by
  induction l with
  | nil => simp at h
  | cons x l ih =>
    obtain ⟨a, b⟩ := x
    simp only [List.map_cons, List.nodup_cons] at hn
    rcases List.mem_cons.1 h with rfl | h
    · simp
    · have : kv.1 ≠ a := fun e => hn.1 (e ▸ List.mem_map.2 ⟨kv, h, rfl⟩)
      have e' : (kv.1 == a) = false := by simpa using this
      rw [List.lookup_cons, e']
      exact ih hn.2 h

/-! ## Sorting and unique -/

theorem npSort_perm {α : Type} [LinearOrder α] (l : List α) : (npSort l).Perm l :=
  List.perm_insertionSort _ _

theorem mem_npSort {α : Type} [LinearOrder α] {l : List α} {x : α} : x ∈ npSort l ↔ x ∈ l :=
  (npSort_perm l).mem_iff

theorem npSort_sorted {α : Type} [LinearOrder α] (l : List α) : (npSort l).Pairwise (· ≤ ·) :=
  List.pairwise_insertionSort _ _

theorem npSort_strict {α : Type} [LinearOrder α] {l : List α} (h : l.Nodup) :
    (npSort l).Pairwise (· < ·) := by
  have h1 := npSort_sorted l
  have h2 : (npSort l).Pairwise (· ≠ ·) := (npSort_perm l).nodup_iff.2 h
  exact (h1.and h2).imp fun h => lt_of_le_of_ne h.1 h.2

theorem npSort_of_sorted {α : Type} [LinearOrder α] {l : List α} (h : l.Pairwise (· ≤ ·)) :
    npSort l = l := List.Pairwise.insertionSort_eq h

theorem mem_npUnique {ids : List ι} {x : ι} : x ∈ npUnique ids ↔ x ∈ ids := by
  rw [npUnique, mem_npSort, List.mem_dedup]

theorem npUnique_strict (ids : List ι) : (npUnique ids).Pairwise (· < ·) :=
  npSort_strict (List.nodup_dedup ids)

theorem npUnique_nodup (ids : List ι) : (npUnique ids).Nodup :=
  (npUnique_strict ids).imp fun h => ne_of_lt h

theorem npSort_npUnique (ids : List ι) : npSort (npUnique ids) = npUnique ids :=
  npSort_of_sorted ((npUnique_strict ids).imp fun h => le_of_lt h)

theorem npUniqueIndex_nodup (ids : List ι) : (npUniqueIndex ids).Nodup := by
  refine List.Nodup.map_on ?_ (npUnique_nodup ids)
  intro x hx y _ h
  exact (List.idxOf_inj (mem_npUnique.1 hx)).1 h

theorem mem_npUniqueIndex {ids : List ι} {i : ℕ} :
    i ∈ npUniqueIndex ids ↔ ∃ x ∈ ids, ids.idxOf x = i := by
  simp [npUniqueIndex, mem_npUnique]

theorem getElem?_idxOf {α : Type} [DecidableEq α] {ids : List α} {x : α} (h : x ∈ ids) : ids[ids.idxOf x]? = some x := by
  rw [List.getElem?_eq_getElem (List.idxOf_lt_length_iff.2 h)]
  simp

theorem mem_originalOrder {ids : List ι} {x : ι} : x ∈ originalOrderUniqueIds ids ↔ x ∈ ids := by
  simp only [originalOrderUniqueIds, takeIdx, List.mem_filterMap, mem_npSort, mem_npUniqueIndex]
  constructor
  · rintro ⟨i, -, h⟩
    exact List.mem_of_getElem? h
  · intro h
    exact ⟨_, ⟨x, h, rfl⟩, getElem?_idxOf h⟩

theorem originalOrder_pairwise (ids : List ι) :
    (originalOrderUniqueIds ids).Pairwise fun a b => ids.idxOf a < ids.idxOf b := by
  rw [originalOrderUniqueIds, takeIdx, List.pairwise_filterMap]
  refine (npSort_strict (npUniqueIndex_nodup ids)).imp_of_mem ?_
  intro i j hi hj hij x hx y hy
  obtain ⟨a, ha, rfl⟩ := mem_npUniqueIndex.1 (mem_npSort.1 hi)
  obtain ⟨b, hb, rfl⟩ := mem_npUniqueIndex.1 (mem_npSort.1 hj)
  rw [getElem?_idxOf ha] at hx
  rw [getElem?_idxOf hb] at hy
  obtain rfl := Option.some.inj hx
  obtain rfl := Option.some.inj hy
  exact hij

theorem originalOrder_nodup (ids : List ι) : (originalOrderUniqueIds ids).Nodup :=
  (originalOrder_pairwise ids).imp fun h e => by subst e; exact lt_irrefl _ h

/-! ## `Except` -/

theorem ite_ok {p : Prop} [Decidable p] {e : Err} :
    (if p then (.ok () : Except Err Unit) else .error e) = .ok () ↔ p := by
  split_ifs with h <;> simp [h]

theorem ite_error {p : Prop} [Decidable p] {e : Err} :
    (if p then (.error e : Except Err Unit) else .ok ()) = .ok () ↔ ¬ p := by
  split_ifs with h <;> simp [h]

theorem bind_ok_iff {α : Type} {x : Except Err Unit} {f : Unit → Except Err α} {y : α} :
    (x >>= f) = .ok y ↔ x = .ok () ∧ f () = .ok y := by
  cases x <;> simp [bind, Except.bind]

theorem mapM_ok {α β : Type} {f : α → Except Err β} {g : α → β} {l : List α}
    (h : ∀ x ∈ l, f x = .ok (g x)) : l.mapM f = .ok (l.map g) := by
  induction l with
  | nil => rfl
  | cons x l ih =>
    rw [List.mapM_cons, h x (by simp), ih fun y hy => h y (by simp [hy])]
    rfl

theorem mapM_error {α β : Type} {f : α → Except Err β} {e : Err} {l : List α}
    (h : ∀ x ∈ l, (∃ y, f x = .ok y) ∨ f x = .error e) (hx : ∃ x ∈ l, f x = .error e) :
    l.mapM f = .error e := by
  induction l with
  | nil => simp at hx
  | cons x l ih =>
    rw [List.mapM_cons]
    rcases h x (by simp) with ⟨y, hy⟩ | hy
    · rw [hy]
      have : ∃ x ∈ l, f x = .error e := by
        obtain ⟨z, hz, he⟩ := hx
        rcases List.mem_cons.1 hz with rfl | hz
        · rw [hy] at he; cases he
        · exact ⟨z, hz, he⟩
      have := ih (fun y hy => h y (by simp [hy])) this
      simp only [bind, Except.bind, this]
    · rw [hy]; rfl

end Pylogit
