import Verif.Lemmas.Mappings
import Verif.Props.Probabilities

/-!
# C01-C04: unique ids and mapping matrices
-/

set_option linter.unusedSectionVars false

namespace Pylogit

variable {ι V : Type} [LinearOrder ι]

namespace Spec

/-- The ids in order of first appearance: keep the head, drop its later repetitions. -/
def firstAppearance {ι : Type} [DecidableEq ι] : List ι → List ι
  | [] => []
  | x :: xs => x :: (firstAppearance xs).filter fun y => decide (y ≠ x)

/-- `M` has, in each row `r`, a single 1, in a column labelled with the id of the row; all other
entries are 0; and no column is empty. -/
structure OneHotPartition [Zero V] [One V] (rowIds colIds : List ι)
    (M : Matrix (Fin rowIds.length) (Fin colIds.length) V) : Prop where
  hit : ∀ r, ∃ c, colIds.get c = rowIds.get r ∧ M r c = 1 ∧ ∀ c', c' ≠ c → M r c' = 0
  column : ∀ c, ∃ r, M r c = 1
  labels : colIds.Nodup

/-- In `nestSpec`, alternative `x` occurs in exactly one position of exactly one nest. -/
def InOneNest {ν : Type} (nestSpec : List (ν × List ι)) (x : ι) : Prop :=
  (nestSpec.flatMap Prod.snd).count x = 1

end Spec

open Spec

/-! ## C01 -/

/-- **C01**. `get_original_order_unique_ids` returns each id of the input exactly once, nothing
else, ordered by the position of the first appearance. -/
theorem unique_ids_first_appearance (ids : List ι) :
    (originalOrderUniqueIds ids).Nodup ∧ (∀ x, x ∈ originalOrderUniqueIds ids ↔ x ∈ ids) ∧
      (originalOrderUniqueIds ids).Pairwise fun a b => ids.idxOf a < ids.idxOf b :=
  ⟨originalOrder_nodup ids, fun _ => mem_originalOrder, originalOrder_pairwise ids⟩

theorem mem_firstAppearance {ids : List ι} {x : ι} : x ∈ firstAppearance ids ↔ x ∈ ids := by
  induction ids with
  | nil => simp [firstAppearance]
  | cons y ys ih => by_cases h : x = y <;> simp [firstAppearance, ih, h]

theorem firstAppearance_pairwise (ids : List ι) :
    (firstAppearance ids).Pairwise fun a b => ids.idxOf a < ids.idxOf b := by
  induction ids with
  | nil => simp [firstAppearance]
  | cons y ys ih =>
    refine List.pairwise_cons.2 ⟨?_, ?_⟩
    · intro b hb
      have hb : b ≠ y := by simpa using (List.mem_filter.1 hb).2
      rw [List.idxOf_cons_self, List.idxOf_cons_ne _ hb.symm]
      omega
    · refine (ih.filter _).imp_of_mem ?_
      intro a b ha hb h
      have ha : a ≠ y := by simpa using (List.mem_filter.1 ha).2
      have hb : b ≠ y := by simpa using (List.mem_filter.1 hb).2
      rw [List.idxOf_cons_ne _ ha.symm, List.idxOf_cons_ne _ hb.symm]
      omega

/-- **C01** (as a function). The result is the recursive first-appearance list. -/
theorem unique_ids_eq_firstAppearance (ids : List ι) :
    originalOrderUniqueIds ids = firstAppearance ids := by
  have h1 := originalOrder_pairwise ids
  have h2 := firstAppearance_pairwise ids
  have n2 : (firstAppearance ids).Nodup := h2.imp fun h e => by subst e; exact lt_irrefl _ h
  have hp : (originalOrderUniqueIds ids).Perm (firstAppearance ids) :=
    (List.perm_ext_iff_of_nodup (originalOrder_nodup ids) n2).2 fun x => by
      rw [mem_originalOrder, mem_firstAppearance]
  exact hp.eq_of_pairwise (fun a b _ _ hab hba => absurd hab (by omega)) h1 h2

example : originalOrderUniqueIds [3, 1, 3, 2, 1] = [3, 1, 2] := by decide

/-! ## C02 -/

theorem sparseMapping_oneHot [Zero V] [One V] (ids uniq : List ι) (hu : uniq.Nodup)
    (hm : ∀ x, x ∈ uniq ↔ x ∈ ids) :
    OneHotPartition ids uniq (sparseMapping (V := V) ids uniq) where
  hit r := by
    obtain ⟨c, hc⟩ := List.get_of_mem ((hm _).2 (List.get_mem ids r))
    refine ⟨c, hc, by rw [sparseMapping_apply _ _ hu, if_pos hc.symm], fun c' h => ?_⟩
    rw [sparseMapping_apply _ _ hu, if_neg]
    intro e
    exact h (List.nodup_iff_injective_get.1 hu (by rw [← e, hc]))
  column c := by
    obtain ⟨r, hr⟩ := List.get_of_mem ((hm _).1 (List.get_mem uniq c))
    exact ⟨r, by rw [sparseMapping_apply _ _ hu, if_pos hr]⟩
  labels := hu

/-- **C02** (`rows_to_obs`). One-hot partition, columns in order of first appearance. -/
theorem rowsToObs_oneHot [Zero V] [One V] (obsIds : List ι) :
    OneHotPartition obsIds (originalOrderUniqueIds obsIds) (rowsToObs (V := V) obsIds) ∧
      originalOrderUniqueIds obsIds = firstAppearance obsIds :=
  ⟨sparseMapping_oneHot _ _ (originalOrder_nodup _) fun _ => mem_originalOrder,
    unique_ids_eq_firstAppearance _⟩

/-- **C02** (`rows_to_alts`). One-hot partition, columns in ascending order. -/
theorem rowsToAlts_oneHot [Zero V] [One V] (altIds : List ι) :
    OneHotPartition altIds (npSort (npUnique altIds)) (rowsToAlts (V := V) altIds) ∧
      (npSort (npUnique altIds)).Pairwise (· < ·) :=
  ⟨sparseMapping_oneHot _ _ (by rw [npSort_npUnique]; exact npUnique_nodup _)
    fun x => by rw [npSort_npUnique, mem_npUnique],
    by rw [npSort_npUnique]; exact npUnique_strict _⟩

/-- **C02** (dense variant). `create_row_to_some_id_col_mapping` builds the same matrix as the
default `create_sparse_mapping`. -/
theorem rowToSomeIdColMapping_eq [Zero V] [One V] (ids : List ι) :
    rowToSomeIdColMapping (V := V) ids = sparseMappingDefault ids := by
  refine Matrix.ext fun r c => ?_
  rw [sparseMappingDefault, sparseMapping_apply _ _ (originalOrder_nodup _)]
  rfl

/-- A one-hot partition is the membership matrix of a surjective assignment of rows to columns:
this discharges the hypothesis `Indicates` (and "every observation has a row") of C16-C30 for the
mappings the code builds. -/
theorem OneHotPartition.indicates {rowIds colIds : List ι}
    {M : Matrix (Fin rowIds.length) (Fin colIds.length) ℝ} (h : OneHotPartition rowIds colIds M) :
    ∃ f : Fin rowIds.length → Fin colIds.length, Indicates M f ∧ Function.Surjective f ∧
      ∀ r s, f r = f s ↔ rowIds.get r = rowIds.get s := by
  choose f hf h1 h0 using h.hit
  refine ⟨f, fun r o => ?_, fun c => ?_, fun r s => ?_⟩
  · by_cases e : f r = o
    · subst e; rw [if_pos rfl, h1]
    · rw [if_neg e, h0 _ _ (Ne.symm e)]
  · obtain ⟨r, hr⟩ := h.column c
    refine ⟨r, ?_⟩
    by_contra e
    rw [h0 r c (Ne.symm e)] at hr
    exact zero_ne_one hr
  · constructor
    · intro e; rw [← hf, ← hf, e]
    · intro e
      refine List.nodup_iff_injective_get.1 h.labels ?_
      rw [hf, hf, e]

/-- **C16 with the mappings the code builds**: for every id array, design and parameters, the
probabilities computed with `rows_to_obs` are in (0,1] and, summed over the rows that share an
observation id, equal one. -/
theorem probabilities_valid_of_ids {A S I K : Type} [Fintype K] (obsIds : List ι) (β : K → ℝ)
    (X : Matrix (Fin obsIds.length) K ℝ) (alt : Fin obsIds.length → ι)
    (rta : Matrix (Fin obsIds.length) A ℝ) (T : Transform (Fin obsIds.length) A S I ι)
    (icpt : Option (I → ℝ)) (shape : Option (S → ℝ)) :
    let p := modelProbs β X alt (rowsToObs obsIds) rta T icpt shape
    (∀ r, 0 < p r ∧ p r ≤ 1) ∧
      ∀ r, ∑ s with obsIds.get s = obsIds.get r, p s = 1 := by
  obtain ⟨f, hf, -, hs⟩ := OneHotPartition.indicates (rowsToObs_oneHot (V := ℝ) obsIds).1
  obtain ⟨h1, h2⟩ := probabilities_valid hf
    (calcProbabilities_long_1d β X alt (rowsToObs obsIds) rta T icpt shape) rfl
  refine ⟨fun r => h1 r (), fun r => ?_⟩
  rw [← h2 (f r) () ⟨r, rfl⟩]
  exact Finset.sum_congr (by ext s; simp [rowsOf, hs]) fun _ _ => rfl

/-! ## C03 -/

/-- **C03**. Entry `(row, obs)` of `chosen_row_to_obs` is the row's choice value if the row has
that observation id, and 0 otherwise. -/
theorem chosenRowToObs_entry [MulZeroOneClass V] (obsIds : List ι)
    (choice : Fin obsIds.length → V) (r : Fin obsIds.length)
    (c : Fin (originalOrderUniqueIds obsIds).length) :
    chosenRowToObs obsIds choice r c =
      if obsIds.get r = (originalOrderUniqueIds obsIds).get c then choice r else 0 := by
  simp only [chosenRowToObs, Matrix.of_apply, rowsToObs, sparseMappingDefault]
  rw [sparseMapping_apply _ _ (originalOrder_nodup _)]
  split_ifs <;> simp

/-- **C03** (one chosen row per observation). Then each column has a single non-zero entry, a 1, in
the chosen row of that observation. -/
theorem chosenRowToObs_single [MulZeroOneClass V] (obsIds : List ι)
    (choice : Fin obsIds.length → V) (chosen : ι → Fin obsIds.length)
    (hmem : ∀ x ∈ obsIds, obsIds.get (chosen x) = x) (hone : ∀ x ∈ obsIds, choice (chosen x) = 1)
    (hzero : ∀ r, r ≠ chosen (obsIds.get r) → choice r = 0)
    (c : Fin (originalOrderUniqueIds obsIds).length) (r : Fin obsIds.length) :
    chosenRowToObs obsIds choice r c =
      if r = chosen ((originalOrderUniqueIds obsIds).get c) then 1 else 0 := by
  have hc : (originalOrderUniqueIds obsIds).get c ∈ obsIds :=
    mem_originalOrder.1 (List.get_mem _ _)
  rw [chosenRowToObs_entry]
  by_cases h : r = chosen ((originalOrderUniqueIds obsIds).get c)
  · rw [if_pos h, if_pos (by rw [h, hmem _ hc]), h, hone _ hc]
  · rw [if_neg h]
    split_ifs with e
    · exact hzero r (by rw [e]; exact h)
    · rfl

/-- The hypotheses of `chosenRowToObs_single` on a table of two observations. -/
example : ∃ chosen : ℕ → Fin [7, 7, 5].length,
    (∀ x ∈ [7, 7, 5], [7, 7, 5].get (chosen x) = x) ∧
    (∀ x ∈ [7, 7, 5], (![0, 1, 1] : Fin 3 → ℤ) (chosen x) = 1) ∧
    (∀ r, r ≠ chosen ([7, 7, 5].get r) → (![0, 1, 1] : Fin 3 → ℤ) r = 0) :=
  ⟨fun x => if x = 7 then 1 else 2, by decide⟩

/-! ## C04 -/

theorem nestIds_nodup {ν : Type} (nestSpec : List (ν × List ι)) : (nestIds nestSpec).Nodup :=
  List.nodup_range.map fun a b h => by simpa using h

theorem flat_fst {ν : Type} (nestSpec : List (ν × List ι)) :
    (nestSpec.flatMap fun kv => kv.2.map fun e => (e, kv.1)).map Prod.fst =
      nestSpec.flatMap Prod.snd := by
  induction nestSpec with
  | nil => rfl
  | cons kv l ih => simp [List.flatMap_cons, ih, Function.comp_def]

theorem count_flat_lt {ν : Type} {nestSpec : List (ν × List ι)} {x : ι} {i j : ℕ}
    {n m : ν × List ι} (hi : nestSpec[i]? = some n) (hj : nestSpec[j]? = some m) (hij : i < j)
    (hn : x ∈ n.2) (hm : x ∈ m.2) : 2 ≤ (nestSpec.flatMap Prod.snd).count x := by
  induction nestSpec generalizing i j with
  | nil => simp at hi
  | cons kv l ih =>
    rw [List.flatMap_cons, List.count_append]
    obtain ⟨j, rfl⟩ : ∃ k, j = k + 1 := ⟨j - 1, by omega⟩
    rw [List.getElem?_cons_succ] at hj
    cases i with
    | zero =>
      obtain rfl : kv = n := by simpa using hi
      have h1 := List.count_pos_iff.2 hn
      have h2 : 0 < (l.flatMap Prod.snd).count x :=
        List.count_pos_iff.2 (List.mem_flatMap.2 ⟨m, List.mem_of_getElem? hj, hm⟩)
      omega
    | succ i =>
      rw [List.getElem?_cons_succ] at hi
      have := ih hi hj (by omega)
      omega

/-- The nest position of an alternative that occurs in one nest only. -/
theorem nestIdOf_unique {ν : Type} [DecidableEq ν] {nestSpec : List (ν × List ι)}
    (hk : (nestSpec.map Prod.fst).Nodup) {x : ι} (hx : InOneNest nestSpec x) :
    ∃ j, ∃ n, nestSpec[j]? = some n ∧ x ∈ n.2 ∧ nestIdOf nestSpec x = .ok (j + 1) ∧
      ∀ i m, nestSpec[i]? = some m → x ∈ m.2 → i = j := by
  have hmem : x ∈ nestSpec.flatMap Prod.snd := by
    rw [← List.count_pos_iff, hx]; exact one_pos
  cases hd : altIdToNestName nestSpec x with
  | none =>
    rw [altIdToNestName, dictOfPairs_none, flat_fst] at hd
    exact absurd hmem hd
  | some name =>
    obtain ⟨n, hn, hp⟩ := List.mem_flatMap.1 (dictOfPairs_mem hd)
    obtain ⟨e, he, hpe⟩ := List.mem_map.1 hp
    obtain ⟨rfl, rfl⟩ := Prod.mk.inj hpe
    obtain ⟨j, hj⟩ := List.mem_iff_getElem?.1 hn
    refine ⟨j, n, hj, he, ?_, ?_⟩
    · have : nestNameToNestId nestSpec n.1 = some (j + 1) := by
        rw [nestNameToNestId, dictOfPairs_nodup]
        · rw [List.mem_iff_getElem?]
          refine ⟨j, List.getElem?_zip_eq_some.2 ⟨by simp [hj], ?_⟩⟩
          have := (List.getElem?_eq_some_iff.1 hj).1
          simp [nestIds, this]
        · rwa [List.map_fst_zip (by simp [nestIds])]
      simp [nestIdOf, hd, this]
    · intro i m hm hxm
      unfold InOneNest at hx
      rcases lt_trichotomy i j with h | h | h
      · have := count_flat_lt hm hj h hxm he; omega
      · exact h
      · have := count_flat_lt hj hm h he hxm; omega

/-- **C04** (mapping). If the nest names are distinct (a Python dictionary) and every alternative of
the table is in exactly one nest position, `create_long_form_mappings` succeeds, and row `r` of
`rows_to_nests` is 1 in the column of the nest that lists the row's alternative, and 0 elsewhere. -/
theorem rowsToNests_entry [Zero V] [One V] [NeZero (1 : V)] {ν : Type} [DecidableEq ν]
    (altIds : List ι) (nestSpec : List (ν × List ι)) (hk : (nestSpec.map Prod.fst).Nodup)
    (hone : ∀ x ∈ altIds, InOneNest nestSpec x) :
    ∃ (ids : List ℕ) (M : Matrix (Fin ids.length) (Fin (nestIds nestSpec).length) V),
      rowsToNests altIds nestSpec = .ok ⟨ids, M⟩ ∧
      (nestIds nestSpec).length = nestSpec.length ∧
      ∃ hlen : ids.length = altIds.length,
        (∀ r j n, nestSpec[(j : Fin (nestIds nestSpec).length).val]? = some n →
          M r j = if altIds.get (r.cast hlen) ∈ n.2 then 1 else 0) ∧
        ∀ r, ∃! j, M r j = 1 := by
  classical
  have hch : ∀ x : ι, ∃ v : ℕ, x ∈ altIds → nestIdOf nestSpec x = .ok v := by
    intro x
    by_cases hx : x ∈ altIds
    · obtain ⟨j, -, -, -, h, -⟩ := nestIdOf_unique hk (hone x hx)
      exact ⟨_, fun _ => h⟩
    · exact ⟨0, fun h => absurd h hx⟩
  choose g hg using hch
  have hm : altIds.mapM (nestIdOf nestSpec) = .ok (altIds.map g) := mapM_ok hg
  have hent : ∀ (r : Fin (altIds.map g).length) (j : Fin (nestIds nestSpec).length) n,
      nestSpec[j.val]? = some n →
      sparseMapping (V := V) (altIds.map g) (nestIds nestSpec) r j =
        if altIds.get (r.cast (by simp)) ∈ n.2 then 1 else 0 := by
    intro r j n hn
    rw [sparseMapping_apply _ _ (nestIds_nodup nestSpec)]
    have hr : r.val < altIds.length := by simpa using r.2
    have hmem : altIds[r.val] ∈ altIds := List.getElem_mem _
    obtain ⟨i, m, hi, hxm, hid, hu⟩ := nestIdOf_unique hk (hone _ hmem)
    have hgi : g altIds[r.val] = i + 1 := by
      have := hg _ hmem
      rw [hid] at this
      exact (Except.ok.inj this).symm
    have e1 : (altIds.map g).get r = i + 1 := by
      rw [List.get_eq_getElem, List.getElem_map, hgi]
    have e2 : (nestIds nestSpec).get j = j.val + 1 := by
      rw [List.get_eq_getElem]; simp [nestIds]
    have e3 : altIds.get (r.cast (by simp)) = altIds[r.val] := rfl
    rw [e1, e2, e3]
    refine if_congr ?_ rfl rfl
    constructor
    · intro h
      obtain rfl : i = j.val := by omega
      rw [hi] at hn
      rw [← Option.some.inj hn]; exact hxm
    · intro h
      rw [hu _ _ hn h]
  refine ⟨altIds.map g, sparseMapping (altIds.map g) (nestIds nestSpec), ?_, by simp [nestIds],
    by simp, hent, ?_⟩
  · simp [rowsToNests, hm, bind, Except.bind]
  · intro r
    have hr : r.val < altIds.length := by simpa using r.2
    obtain ⟨i, m, hi, hxm, hid, hu⟩ := nestIdOf_unique hk (hone altIds[r.val] (List.getElem_mem _))
    have hil := (List.getElem?_eq_some_iff.1 hi).1
    refine ⟨⟨i, by simpa [nestIds] using hil⟩, ?_, ?_⟩
    · show sparseMapping (V := V) _ _ r _ = 1
      rw [hent r ⟨i, _⟩ m hi]; exact if_pos hxm
    · intro j hj
      have hjl : j.val < nestSpec.length := by simpa [nestIds] using j.2
      have hj' := List.getElem?_eq_getElem hjl
      by_contra hne
      have : sparseMapping (V := V) (altIds.map g) (nestIds nestSpec) r j = 1 := hj
      rw [hent r j _ hj', if_neg] at this
      · exact (NeZero.ne (1 : V)) this.symm
      · intro hx
        exact hne (Fin.ext (hu _ _ hj' hx))

/-- **C04** (error). If some alternative of the table is in no nest, the call raises `KeyError`. -/
theorem rowsToNests_keyError [Zero V] [One V] {ν : Type} [DecidableEq ν]
    (altIds : List ι) (nestSpec : List (ν × List ι)) (x : ι) (hx : x ∈ altIds)
    (hno : ∀ n ∈ nestSpec, x ∉ n.2) :
    rowsToNests (V := V) altIds nestSpec = .error .keyError := by
  have hm : altIds.mapM (nestIdOf nestSpec) = .error .keyError := by
    refine mapM_error (fun y _ => ?_) ⟨x, hx, ?_⟩
    · unfold nestIdOf
      split
      · exact Or.inr rfl
      · split
        · exact Or.inr rfl
        · exact Or.inl ⟨_, rfl⟩
    · have : altIdToNestName nestSpec x = none := by
        rw [altIdToNestName, dictOfPairs_none, flat_fst]
        simpa using fun a b h => hno (a, b) h
      simp [nestIdOf, this]
  simp [rowsToNests, hm, bind, Except.bind]

/-- The hypotheses of `rowsToNests_entry` on two nests and four rows. -/
example : ([("auto", [1, 3]), ("transit", [2])].map Prod.fst).Nodup ∧
    ∀ x ∈ [1, 2, 3, 2], InOneNest [("auto", [1, 3]), ("transit", [2])] x := by
  unfold InOneNest; decide

end Pylogit
