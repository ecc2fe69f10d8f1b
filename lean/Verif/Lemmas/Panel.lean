import Verif.Props.Mixed
import Verif.Props.Mappings

/-! # Helper lemmas for the panel predictions -/

set_option linter.unusedSectionVars false

open Finset Matrix Function

namespace Pylogit

open Spec

section Filter

variable {R : Type} [Fintype R] [DecidableEq R] {n : ℕ}

theorem mem_keptCols {B : Matrix R (Fin n) ℝ} {f : R → Fin n} (hB : Indicates B f)
    {mask : R → Prop} [DecidablePred mask] {c : Fin n} :
    c ∈ keptCols B mask ↔ ∃ r, mask r ∧ f r = c := by
  simp only [keptCols, List.mem_filter, List.mem_finRange, true_and, decide_eq_true_eq, hB _ _]
  have h : ∀ r, (if f r = c then (1 : ℝ) else 0) * (if mask r then 1 else 0) =
      if mask r ∧ f r = c then 1 else 0 := by
    intro r
    by_cases h1 : f r = c <;> by_cases h2 : mask r <;> simp [h1, h2]
  simp only [h]
  rw [Ne, Finset.sum_eq_zero_iff_of_nonneg fun r _ => by split_ifs <;> norm_num]
  constructor
  · intro hn
    by_contra hne
    refine hn fun r _ => if_neg fun hr => hne ⟨r, hr⟩
  · rintro ⟨r, hr⟩ h0
    have := h0 r (Finset.mem_univ _)
    rw [if_pos hr] at this
    exact one_ne_zero this

theorem keptCols_nodup (B : Matrix R (Fin n) ℝ) (mask : R → Prop) [DecidablePred mask] :
    (keptCols B mask).Nodup := (List.nodup_finRange n).filter _

/-- The row filter of `__filter_past_mappings` (mixed_logit.py:667-670) keeps exactly the masked rows
of a mapping whose rows are one-hot. -/
theorem filter_rows_are_masked {B : Matrix R (Fin n) ℝ} {f : R → Fin n} (hB : Indicates B f)
    (mask : R → Prop) [DecidablePred mask] (r : R) :
    (∑ c, B r c * (if mask r then 1 else 0)) ≠ 0 ↔ mask r := by
  simp only [hB _ _]
  by_cases h : mask r <;> simp [h]

theorem filterPast_indicates {B : Matrix R (Fin n) ℝ} {f : R → Fin n} (hB : Indicates B f)
    (mask : R → Prop) [DecidablePred mask] :
    ∃ f' : {r // mask r} → Fin (keptCols B mask).length,
      Indicates (filterPastMapping B mask) f' ∧ ∀ r, (keptCols B mask).get (f' r) = f r.1 := by
  have h : ∀ r : {r // mask r}, ∃ c, (keptCols B mask).get c = f r.1 := fun r =>
    List.get_of_mem ((mem_keptCols hB).2 ⟨r.1, r.2, rfl⟩)
  choose f' hf' using h
  refine ⟨f', fun r c => ?_, hf'⟩
  simp only [filterPastMapping, Matrix.of_apply, hB _ _]
  by_cases e : f' r = c
  · rw [if_pos e, if_pos]; rw [← e, hf']
  · rw [if_neg e, if_neg]
    intro e'
    rw [← hf' r] at e'
    exact e (List.nodup_iff_injective_get.1 (keptCols_nodup B mask) e')

/-- Restricting the data to whole observations does not change the probabilities. -/
theorem clippedLogit_subtype {O O' : Type} [DecidableEq O] [DecidableEq O'] {f : R → O}
    {mask : R → Prop} [DecidablePred mask] {f' : {r // mask r} → O'}
    (hf : ∀ r s, f' r = f' s ↔ f r.1 = f s.1) (hm : ∀ r s, f r = f s → mask r → mask s)
    {h : R → ℝ} {h' : {r // mask r} → ℝ} {r : {r // mask r}}
    (hh : ∀ s : {r // mask r}, f s.1 = f r.1 → h' s = h s.1) :
    clippedLogit f' h' r = clippedLogit f h r.1 := by
  simp only [clippedLogit, logitProb, hh r rfl]
  congr 1
  rw [rowsOf, rowsOf, Finset.sum_filter, Finset.sum_filter]
  simp only [hf]
  have h1 : ∀ x : {r // mask r}, (if f x.1 = f r.1 then Real.exp (clip700 (h' x)) else 0) =
      (fun s => if f s = f r.1 then Real.exp (clip700 (h s)) else 0) x.1 := by
    intro x
    by_cases hx : f x.1 = f r.1
    · simp only [if_pos hx, hh x hx]
    · simp only [if_neg hx]
  rw [Finset.sum_congr rfl fun x _ => h1 x]
  refine (Finset.sum_subtype (Finset.univ.filter mask) (by simp)
    (fun s => if f s = f r.1 then Real.exp (clip700 (h s)) else 0)).symm.trans ?_
  rw [Finset.sum_filter]
  refine Finset.sum_congr rfl fun s _ => ?_
  by_cases hs : f s = f r.1
  · rw [if_pos (hm r.1 s hs.symm r.2)]
  · simp [hs]

/-- Restricting the data to all rows of a person does not change the probability of the history. -/
theorem sequenceProb_subtype {M M' : Type} [DecidableEq M] [DecidableEq M'] {g : R → M}
    {mask : R → Prop} [DecidablePred mask] {g' : {r // mask r} → M'} {m : M} {m' : M'}
    (hg : ∀ r, g' r = m' ↔ g r.1 = m) (hm : ∀ r, g r = m → mask r) (y : R → ℝ)
    {p : R → ℝ} {p' : {r // mask r} → ℝ} (hp : ∀ r : {r // mask r}, g r.1 = m → p' r = p r.1) :
    sequenceProb g' (fun r => y r.1) p' m' = sequenceProb g y p m := by
  simp only [sequenceProb, Finset.prod_filter, hg]
  have h1 : ∀ x : {r // mask r}, (if g x.1 = m ∧ y x.1 = 1 then p' x else 1) =
      (fun s => if g s = m ∧ y s = 1 then p s else 1) x.1 := by
    intro x
    by_cases hx : g x.1 = m ∧ y x.1 = 1
    · simp only [if_pos hx, hp x hx.1]
    · simp only [if_neg hx]
  rw [Finset.prod_congr rfl fun x _ => h1 x]
  refine (Finset.prod_subtype (Finset.univ.filter mask) (by simp)
    (fun s => if g s = m ∧ y s = 1 then p s else 1)).symm.trans ?_
  rw [Finset.prod_filter]
  refine Finset.prod_congr rfl fun s _ => ?_
  by_cases hs : g s = m
  · rw [if_pos (hm s hs)]
  · simp [hs]

end Filter

section Ids

variable {ι : Type} [LinearOrder ι]

/-- The position of the id of row `r` in the list of unique ids. -/
theorem rowsToObs_indicates (ids : List ι) :
    ∃ f : Fin ids.length → Fin (originalOrderUniqueIds ids).length,
      Indicates (rowsToObs (V := ℝ) ids) f ∧
      ∀ r, (originalOrderUniqueIds ids).get (f r) = ids.get r := by
  have h : ∀ r, ∃ c, (originalOrderUniqueIds ids).get c = ids.get r := fun r =>
    List.get_of_mem (mem_originalOrder.2 (List.get_mem ids r))
  choose f hf using h
  refine ⟨f, fun r c => ?_, hf⟩
  rw [rowsToObs, sparseMappingDefault, sparseMapping_apply _ _ (originalOrder_nodup ids)]
  by_cases e : f r = c
  · rw [if_pos e, if_pos]; rw [← e, hf]
  · rw [if_neg e, if_neg]
    intro e'
    rw [← hf r] at e'
    exact e (List.nodup_iff_injective_get.1 (originalOrder_nodup ids) e')

theorem map_get_filter {α : Type} (l : List α) (p : α → Bool) :
    ((List.finRange l.length).filter fun c => p (l.get c)).map l.get = l.filter p := by
  have h : (List.finRange l.length).map l.get = l := by
    rw [← List.ofFn_eq_map]; simp
  conv_rhs => rw [← h, List.filter_map]
  rfl

theorem newRepeatPos_map (old new : List ι) :
    (newRepeatPos old new).map (originalOrderUniqueIds new).get =
      (originalOrderUniqueIds new).filter fun x => x ∈ old := by
  rw [newRepeatPos, map_get_filter (originalOrderUniqueIds new) fun x =>
    decide (x ∈ originalOrderUniqueIds old)]
  simp only [mem_originalOrder]

theorem oldRepeatPos_map (old new : List ι) :
    (oldRepeatPos old new).map (originalOrderUniqueIds old).get =
      (originalOrderUniqueIds old).filter fun x => x ∈ new := by
  rw [oldRepeatPos, map_get_filter (originalOrderUniqueIds old) fun x =>
    decide (x ∈ originalOrderUniqueIds new)]
  simp only [mem_originalOrder]

theorem repeats_perm (old new : List ι) :
    ((originalOrderUniqueIds old).filter fun x => x ∈ new).Perm
      ((originalOrderUniqueIds new).filter fun x => x ∈ old) := by
  refine (List.perm_ext_iff_of_nodup ((originalOrder_nodup _).filter _)
    ((originalOrder_nodup _).filter _)).2 fun x => ?_
  simp only [List.mem_filter, mem_originalOrder, decide_eq_true_eq]
  exact and_comm

theorem repeats_length (old new : List ι) :
    (oldRepeatPos old new).length = (newRepeatPos old new).length := by
  have h := (repeats_perm old new).length_eq
  rwa [← oldRepeatPos_map, ← newRepeatPos_map, List.length_map, List.length_map] at h

theorem keptCols_eq (old new : List ι) :
    keptCols (rowsToObs (V := ℝ) old) (oldRepeatRow old new) = oldRepeatPos old new := by
  obtain ⟨f, hf, hid⟩ := rowsToObs_indicates old
  have h1 : ∀ c, c ∈ keptCols (rowsToObs (V := ℝ) old) (oldRepeatRow old new) ↔
      (originalOrderUniqueIds old).get c ∈ originalOrderUniqueIds new := by
    intro c
    rw [mem_keptCols hf]
    constructor
    · rintro ⟨r, hr, rfl⟩
      rw [hid]; exact hr
    · intro hc
      obtain ⟨r, hr⟩ := List.get_of_mem (mem_originalOrder.1 (List.get_mem _ c))
      refine ⟨r, by rw [oldRepeatRow, hr]; exact hc, ?_⟩
      exact List.nodup_iff_injective_get.1 (originalOrder_nodup old) (by rw [hid, hr])
  unfold keptCols at h1 ⊢
  unfold oldRepeatPos
  refine List.filter_congr fun c _ => ?_
  have := h1 c
  simp only [List.mem_filter, List.mem_finRange, true_and, decide_eq_true_eq] at this
  exact decide_eq_decide.2 this

/-- Same order of first appearance: the two lists of repeated ids are equal. -/
theorem repeats_eq_of_sameOrder {old new : List ι} (h : SameOrder old new) :
    ((originalOrderUniqueIds old).filter fun x => x ∈ new) =
      ((originalOrderUniqueIds new).filter fun x => x ∈ old) := by
  refine (repeats_perm old new).eq_of_pairwise (le := fun a b => new.idxOf a < new.idxOf b)
    (fun a b _ _ hab hba => absurd hab (lt_asymm hba)) ?_ ((originalOrder_pairwise new).filter _)
  refine ((originalOrder_pairwise old).filter _).imp_of_mem ?_
  intro a b ha hb hab
  simp only [List.mem_filter, mem_originalOrder, decide_eq_true_eq] at ha hb
  exact (h a b ha.1 ha.2 hb.1 hb.2).1 hab

end Ids

end Pylogit
