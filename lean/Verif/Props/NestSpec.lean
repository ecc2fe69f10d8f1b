import Verif.Model.NestSpec
import Verif.Props.Mappings

/-!
# C09: nest-specification validation
-/

set_option linter.unusedSectionVars false

namespace Pylogit

open Spec

variable {V : Type} [LinearOrder V]

namespace Spec

/-- The Python dictionary for a typed nest specification: string keys, lists of ids. -/
def encodeNests (t : List (String × List V)) : List (PyVal V × PyVal V) :=
  t.map fun kv => (.str kv.1, .list (kv.2.map .num))

/-- `t` is a partition of the alternatives `allIds` into non-empty nests of integer ids. -/
structure NestPartition (isInt : V → Bool) (t : List (String × List V)) (allIds : List V) :
    Prop where
  some_nest : t ≠ []
  nonempty : ∀ n ∈ t, n.2 ≠ []
  ints : ∀ n ∈ t, ∀ a ∈ n.2, isInt a = true
  once : ∀ a ∈ allIds, (t.flatMap Prod.snd).count a = 1
  foreign : ∀ n ∈ t, ∀ a ∈ n.2, a ∈ allIds

end Spec

theorem foldl_elems (l : List (PyVal V × PyVal V)) (acc : List (PyVal V)) :
    l.foldl (fun x y => x ++ y.2.elems) acc = acc ++ l.flatMap fun kv => kv.2.elems := by
  induction l generalizing acc with
  | nil => simp
  | cons kv l ih => simp [ih]

theorem nestListElements_ok {ns : List (PyVal V × PyVal V)} {el : List (PyVal V)} :
    nestListElements ns = .ok el ↔ ns ≠ [] ∧ el = ns.flatMap fun kv => kv.2.elems := by
  cases ns with
  | nil => simp [nestListElements]
  | cons kv rest => simp [nestListElements, List.flatMap, eq_comm]

theorem elems_encode (t : List (String × List V)) :
    (encodeNests t).flatMap (fun kv => kv.2.elems) = (t.flatMap Prod.snd).map .num := by
  induction t with
  | nil => rfl
  | cons kv t ih => simp [encodeNests, PyVal.elems] at ih ⊢; exact ih

theorem filterMap_num (l : List V) : (l.map PyVal.num).filterMap PyVal.num? = l := by
  induction l with
  | nil => rfl
  | cons a l ih => simp [PyVal.num?, ih]

/-- Typed view of a specification that passes the type and integer checks. -/
theorem typed_of_checks {isInt : V → Bool} {ns : List (PyVal V × PyVal V)}
    (h1 : ∀ kv ∈ ns, kv.1.isStr = true) (h2 : ∀ kv ∈ ns, kv.2.isList = true)
    (h3 : ∀ kv ∈ ns, ∀ x ∈ kv.2.elems, x.isIntObj isInt = true) :
    ∃ t : List (String × List V), ns = encodeNests t := by
  induction ns with
  | nil => exact ⟨[], rfl⟩
  | cons kv ns ih =>
    obtain ⟨t, rfl⟩ := ih (fun x hx => h1 x (by simp [hx])) (fun x hx => h2 x (by simp [hx]))
      (fun x hx => h3 x (by simp [hx]))
    obtain ⟨k, v⟩ := kv
    have a1 := h1 (k, v) (by simp)
    have a2 := h2 (k, v) (by simp)
    have a3 := h3 (k, v) (by simp)
    cases k <;> simp [PyVal.isStr] at a1
    cases v <;> simp [PyVal.isList] at a2
    rename_i s l
    have : ∃ m : List V, l = m.map .num := by
      simp only [PyVal.elems] at a3
      clear h1 h2 h3
      induction l with
      | nil => exact ⟨[], rfl⟩
      | cons x l ih =>
        obtain ⟨m, rfl⟩ := ih fun y hy => a3 y (by simp [hy])
        have := a3 x (by simp)
        cases x <;> simp [PyVal.isIntObj] at this
        rename_i a
        exact ⟨a :: m, rfl⟩
    obtain ⟨m, rfl⟩ := this
    exact ⟨(s, m) :: t, rfl⟩

/-- **C09**. The constructor accepts a nest specification iff it is the dictionary of a partition of
the alternatives into at least one, non-empty, nest: every alternative occurs in exactly one nest
position, and no foreign id occurs. -/
theorem validateNestSpec_ok_iff (isInt : V → Bool) (ns : List (PyVal V × PyVal V))
    (allIds : List V) :
    validateNestSpec isInt ns allIds = .ok () ↔
      ∃ t, ns = encodeNests t ∧ NestPartition isInt t allIds := by
  unfold validateNestSpec
  rw [bind_ok_iff, bind_ok_iff]
  simp only [checkNestSpecTypes, checkEmptyNests, ite_ok, ite_error, List.all_eq_true]
  constructor
  · rintro ⟨⟨h1, h2⟩, h3, h4⟩
    cases hel : nestListElements ns with
    | error e => rw [hel] at h4; simp [bind, Except.bind] at h4
    | ok el =>
      rw [hel] at h4
      obtain ⟨hne, hel⟩ := nestListElements_ok.1 hel
      simp only [bind, Except.bind] at h4
      change (ensureNestIdsAreInts isInt el >>= fun _ =>
        ensureOneNest (el.filterMap PyVal.num?) >>= fun _ =>
        ensureAllHaveNest (el.filterMap PyVal.num?) allIds >>= fun _ =>
        ensureNestAltsValid (el.filterMap PyVal.num?) allIds) = .ok () at h4
      rw [bind_ok_iff, bind_ok_iff, bind_ok_iff] at h4
      simp only [ensureNestIdsAreInts, ensureOneNest, ensureAllHaveNest, ensureNestAltsValid,
        ite_ok, ite_error, List.all_eq_true] at h4
      obtain ⟨h5, h6, h7, h8⟩ := h4
      subst hel
      obtain ⟨t, rfl⟩ := typed_of_checks h1 h2 fun kv hkv x hx =>
        h5 x (List.mem_flatMap.2 ⟨kv, hkv, hx⟩)
      rw [elems_encode, filterMap_num] at h6 h7 h8
      refine ⟨t, rfl, ?_, ?_, ?_, ?_, ?_⟩
      · rintro rfl; exact hne rfl
      · intro n hn e
        apply h3
        refine List.ne_nil_of_mem (a := (PyVal.str n.1, PyVal.list (n.2.map .num))) ?_
        rw [List.mem_filter]
        exact ⟨List.mem_map.2 ⟨n, hn, rfl⟩, by simp [PyVal.elems, e]⟩
      · intro n hn a ha
        have := h5 (.num a) (by
          rw [elems_encode]
          exact List.mem_map.2 ⟨a, List.mem_flatMap.2 ⟨n, hn, ha⟩, rfl⟩)
        exact this
      · intro a ha
        have hnd : (t.flatMap Prod.snd).Nodup := by
          have := List.Sublist.eq_of_length (List.dedup_sublist (t.flatMap Prod.snd)) h6
          exact this ▸ List.nodup_dedup _
        have hm : a ∈ t.flatMap Prod.snd := by
          by_contra hn
          exact h7 (List.ne_nil_of_mem (List.mem_filter.2 ⟨ha, by simpa using hn⟩))
        exact List.count_eq_one_of_mem hnd hm
      · intro n hn a ha
        by_contra hno
        exact h8 (List.ne_nil_of_mem (List.mem_filter.2
          ⟨List.mem_flatMap.2 ⟨n, hn, ha⟩, by simpa using hno⟩))
  · rintro ⟨t, rfl, hp⟩
    have hne : encodeNests t ≠ [] := by
      have := hp.some_nest
      simpa [encodeNests] using this
    refine ⟨⟨?_, ?_⟩, ?_, ?_⟩
    · intro kv hkv
      obtain ⟨n, -, rfl⟩ := List.mem_map.1 hkv
      rfl
    · intro kv hkv
      obtain ⟨n, -, rfl⟩ := List.mem_map.1 hkv
      rfl
    · rw [not_not, List.filter_eq_nil_iff]
      intro kv hkv
      obtain ⟨n, hn, rfl⟩ := List.mem_map.1 hkv
      simpa [PyVal.elems] using hp.nonempty n hn
    · rw [nestListElements_ok.2 ⟨hne, rfl⟩]
      show (ensureNestIdsAreInts isInt _ >>= fun _ =>
        ensureOneNest _ >>= fun _ =>
        ensureAllHaveNest _ allIds >>= fun _ =>
        ensureNestAltsValid _ allIds) = .ok ()
      rw [bind_ok_iff, bind_ok_iff, bind_ok_iff]
      simp only [ensureNestIdsAreInts, ensureOneNest, ensureAllHaveNest, ensureNestAltsValid,
        ite_ok, ite_error, List.all_eq_true, elems_encode, filterMap_num]
      have hmem : ∀ a ∈ t.flatMap Prod.snd, a ∈ allIds := by
        intro a ha
        obtain ⟨n, hn, ha⟩ := List.mem_flatMap.1 ha
        exact hp.foreign n hn a ha
      refine ⟨?_, ?_, ?_, ?_⟩
      · intro x hx
        obtain ⟨a, ha, rfl⟩ := List.mem_map.1 hx
        obtain ⟨n, hn, ha⟩ := List.mem_flatMap.1 ha
        exact hp.ints n hn a ha
      · have : (t.flatMap Prod.snd).Nodup := by
          rw [List.nodup_iff_count_le_one]
          intro a
          by_cases ha : a ∈ t.flatMap Prod.snd
          · rw [hp.once a (hmem a ha)]
          · rw [List.count_eq_zero_of_not_mem ha]; omega
        rw [this.dedup]
      · rw [not_not, List.filter_eq_nil_iff]
        intro a ha
        have := hp.once a ha
        simpa using List.count_pos_iff.1 (by omega : 0 < (t.flatMap Prod.snd).count a)
      · rw [not_not, List.filter_eq_nil_iff]
        intro a ha
        simpa using hmem a ha

/-- **C09 gives C04**. After a nest specification has been accepted, building the mappings for the
same table cannot raise `KeyError`, and every row is in exactly one nest. -/
theorem accepted_nests_map [Zero V] [One V] [NeZero (1 : V)] (isInt : V → Bool)
    (t : List (String × List V)) (altIds : List V) (hk : (t.map Prod.fst).Nodup)
    (h : validateNestSpec isInt (encodeNests t) (npSort (npUnique altIds)) = .ok ()) :
    ∃ (ids : List ℕ) (M : Matrix (Fin ids.length) (Fin (nestIds t).length) V),
      rowsToNests altIds t = .ok ⟨ids, M⟩ ∧ ids.length = altIds.length ∧
        ∀ r, ∃! j, M r j = 1 := by
  obtain ⟨t', ht, hp⟩ := (validateNestSpec_ok_iff _ _ _).1 h
  have : t = t' := by
    refine List.map_injective_iff.2 ?_ ht
    rintro ⟨a, b⟩ ⟨c, d⟩ e
    simp only [Prod.mk.injEq, PyVal.str.injEq, PyVal.list.injEq] at e
    have hinj : Function.Injective (PyVal.num : V → PyVal V) := fun x y e => by injection e
    exact Prod.ext e.1 (List.map_injective_iff.2 hinj e.2)
  subst this
  obtain ⟨ids, M, h1, -, h2, -, h3⟩ := rowsToNests_entry (V := V) altIds t hk fun x hx =>
    hp.once x (by rw [npSort_npUnique, mem_npUnique]; exact hx)
  exact ⟨ids, M, h1, h2, h3⟩

/-- A partition of three alternatives into two nests meets the hypotheses. -/
example : NestPartition (fun _ => true) [("auto", [1, 3]), ("transit", [(2 : ℤ)])] [1, 2, 3] :=
  ⟨by simp, by simp, by simp, by decide, by decide⟩

end Pylogit
