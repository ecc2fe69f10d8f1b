import Mathlib.Algebra.BigOperators.Group.Finset.Basic
import Mathlib.Algebra.BigOperators.Group.List.Lemmas
import Mathlib.Algebra.Order.BigOperators.Group.Finset
import Mathlib.Data.Int.Cast.Lemmas
import Mathlib.Algebra.Order.Ring.Int
import Verif.Model.Sampler
import Verif.Spec.Sampler
import Verif.Lemmas.Mappings
import Verif.Props.WideToLong

/-!
# C59-C61: stratified samples, bootstrap tables, jackknife tables
-/

set_option linter.unusedSectionVars false

namespace Pylogit

open Spec

variable {ι κ V : Type} [LinearOrder ι] [LinearOrder κ]

/-! ## C59 -/

section C59

variable [One V] [DecidableEq V] {n : ℕ} (obs : Fin n → ι) (alt : Fin n → κ) (choice : Fin n → V)

/-- The ids grouped under one alternative. -/
private def group (a : κ) : List ι :=
  npSort (npUnique (((List.finRange n).filter fun r => alt r = a ∧ choice r = 1).map obs))

private lemma mem_group {a : κ} {o : ι} : o ∈ group obs alt choice a ↔ Chose obs alt choice o a := by
  unfold group Chose
  rw [mem_npSort, mem_npUnique]
  simp only [List.mem_map, List.mem_filter, List.mem_finRange, true_and, decide_eq_true_eq]
  constructor
  · rintro ⟨r, ⟨h1, h2⟩, h3⟩; exact ⟨r, h3, h1, h2⟩
  · rintro ⟨r, h3, h1, h2⟩; exact ⟨r, ⟨h1, h2⟩, h3⟩

private lemma group_nodup (a : κ) : (group obs alt choice a).Nodup := by
  unfold group
  exact (npSort_perm _).nodup_iff.2 (npUnique_nodup _)

private def alts : List κ := npSort (npUnique (List.ofFn alt))

private lemma alts_nodup : (alts alt).Nodup :=
  (npSort_perm _).nodup_iff.2 (npUnique_nodup _)

private lemma mem_alts {a : κ} : a ∈ alts alt ↔ ∃ r, alt r = a := by
  unfold alts
  rw [mem_npSort, mem_npUnique]
  simp [List.mem_ofFn]

private lemma samples_eq (draw : κ → List ι → ℕ → List ι) (N : ℕ) (seed : Option Bool)
    (hs : seed ≠ some false) :
    crossSectionalSamples draw obs alt choice N seed =
      .ok ((List.range N).map fun s => (alts alt).flatMap fun a =>
        reshapeRow (draw a (group obs alt choice a) ((group obs alt choice a).length * N))
          (group obs alt choice a).length s) := by
  unfold crossSectionalSamples
  rw [if_neg hs]
  have hch : relateObsIdsToChosenAlts obs alt choice =
      (alts alt).map fun a => (a, group obs alt choice a) := rfl
  simp only [Except.ok.injEq, hch, numObsChoosing, List.map_map]
  refine List.map_congr_left fun s _ => ?_
  rw [List.flatMap_map, List.flatMap_def, List.flatMap_def]
  congr 1
  refine List.map_congr_left fun a ha => ?_
  have : ((alts alt).map fun a => (a, group obs alt choice a)).lookup a =
      some (group obs alt choice a) := by
    refine lookup_of_mem_nodup (l := (alts alt).map fun a => (a, group obs alt choice a)) ?_
      (List.mem_map.2 ⟨a, ha, rfl⟩)
    simpa [List.map_map, Function.comp_def] using alts_nodup alt
  simp only [Function.comp_apply, this, Option.getD_some]

private lemma reshapeRow_length {flat : List ι} {size N s : ℕ} (hl : flat.length = size * N)
    (hs : s < N) : (reshapeRow flat size s).length = size := by
  unfold reshapeRow
  rw [List.length_take, List.length_drop, hl]
  have : s * size + size ≤ size * N := by
    calc s * size + size = size * (s + 1) := by ring
      _ ≤ size * N := Nat.mul_le_mul_left _ hs
  omega

private lemma sum_single (l : List κ) (hl : l.Nodup) (a : κ) (f : κ → ℕ)
    (h0 : ∀ b ∈ l, b ≠ a → f b = 0) : (l.map f).sum = if a ∈ l then f a else 0 := by
  induction l with
  | nil => simp
  | cons b l ih =>
    have hn := List.nodup_cons.1 hl
    have ih' := ih hn.2 fun c hc => h0 c (List.mem_cons_of_mem _ hc)
    rw [List.map_cons, List.sum_cons, ih']
    by_cases hb : b = a
    · subst hb
      simp [hn.1]
    · rw [h0 b List.mem_cons_self hb]
      simp [List.mem_cons, Ne.symm hb]

/-- **C59**.  Whatever is drawn, every bootstrap sample has as many observations as the data, all of
them occur in the data, and every alternative is chosen by exactly as many sampled observations as in
the data. -/
theorem bootstrap_sample_shares {draw : κ → List ι → ℕ → List ι} (hd : ValidDraw draw)
    (hone : EachChoseOne obs alt choice) (numSamples : ℕ) {seed : Option Bool}
    (hseed : seed ≠ some false) :
    open Classical in
    ∃ samples, crossSectionalSamples draw obs alt choice numSamples seed = .ok samples ∧
      samples.length = numSamples ∧
      ∀ s ∈ samples,
        s.length = (Finset.univ.image obs).card ∧
        (∀ o ∈ s, ∃ r, obs r = o) ∧
        ∀ a, s.countP (fun o => Chose obs alt choice o a) =
          ((Finset.univ.image obs).filter fun o => Chose obs alt choice o a).card := by
  classical
  refine ⟨_, samples_eq obs alt choice draw numSamples seed hseed, by simp, ?_⟩
  intro smp hsmp
  obtain ⟨s, hs, rfl⟩ := List.mem_map.1 hsmp
  rw [List.mem_range] at hs
  set G := group obs alt choice with hG
  have hgd : ∀ a, G a ≠ [] ∨ (G a).length * numSamples = 0 := by
    intro a
    by_cases h : G a = []
    · right; simp [h]
    · left; exact h
  set chunk : κ → List ι := fun a =>
    reshapeRow (draw a (G a) ((G a).length * numSamples)) (G a).length s with hchunk
  have hlen : ∀ a, (chunk a).length = (G a).length := fun a =>
    reshapeRow_length (hd a (G a) _ (hgd a)).1 hs
  have hmem : ∀ a, ∀ o ∈ chunk a, Chose obs alt choice o a := by
    intro a o ho
    have : o ∈ draw a (G a) ((G a).length * numSamples) :=
      List.mem_of_mem_drop (List.mem_of_mem_take ho)
    exact (mem_group obs alt choice).1 ((hd a (G a) _ (hgd a)).2 o this)
  have hgcard : ∀ a, (G a).length =
      ((Finset.univ.image obs).filter fun o => Chose obs alt choice o a).card := by
    intro a
    rw [← List.toFinset_card_of_nodup (group_nodup obs alt choice a)]
    congr 1
    ext o
    simp only [List.mem_toFinset, Finset.mem_filter, Finset.mem_image, Finset.mem_univ, true_and]
    rw [mem_group]
    exact ⟨fun h => ⟨⟨h.choose, h.choose_spec.1⟩, h⟩, fun h => h.2⟩
  have huniq : ∀ o a b, Chose obs alt choice o a → Chose obs alt choice o b → a = b := by
    rintro o a b ⟨r, hr, ha⟩ hb
    subst hr
    obtain ⟨c, _, hc⟩ := hone r
    rw [hc a ⟨r, rfl, ha⟩, hc b hb]
  have hcount : ∀ a, ((alts alt).flatMap chunk).countP (fun o => Chose obs alt choice o a) =
      ((Finset.univ.image obs).filter fun o => Chose obs alt choice o a).card := by
    intro a
    rw [List.countP_flatMap]
    rw [sum_single (alts alt) (alts_nodup alt) a]
    · split_ifs with h
      · simp only [Function.comp_apply]
        rw [List.countP_eq_length.2 (fun o ho => decide_eq_true (hmem a o ho)), hlen, hgcard]
      · symm
        rw [Finset.card_eq_zero, Finset.filter_eq_empty_iff]
        rintro o - ⟨r, -, hr, -⟩
        exact h ((mem_alts alt).2 ⟨r, hr⟩)
    · intro b _ hb
      simp only [Function.comp_apply]
      rw [List.countP_eq_zero]
      intro o ho
      simp only [decide_eq_true_eq]
      exact fun h => hb (huniq o b a (hmem b o ho) h)
  refine ⟨?_, ?_, hcount⟩
  · rw [List.length_flatMap]
    have : (alts alt).map (fun a => (chunk a).length) = (alts alt).map fun a =>
        ((Finset.univ.image obs).filter fun o => Chose obs alt choice o a).card :=
      List.map_congr_left fun a _ => by rw [hlen, hgcard]
    rw [this, ← List.sum_toFinset _ (alts_nodup alt), ← Finset.card_biUnion]
    · congr 1
      ext o
      simp only [Finset.mem_biUnion, List.mem_toFinset, Finset.mem_filter, Finset.mem_image,
        Finset.mem_univ, true_and]
      constructor
      · rintro ⟨a, _, h, _⟩; exact h
      · rintro ⟨r, rfl⟩
        obtain ⟨a, ha, _⟩ := hone r
        obtain ⟨q, hq, hqa, hqc⟩ := ha
        exact ⟨a, (mem_alts alt).2 ⟨q, hqa⟩, ⟨r, rfl⟩, ⟨q, hq, hqa, hqc⟩⟩
    · intro a _ b _ hab
      refine Finset.disjoint_left.2 fun o ho ho' => ?_
      exact hab (huniq o a b (Finset.mem_filter.1 ho).2 (Finset.mem_filter.1 ho').2)
  · intro o ho
    obtain ⟨a, _, hoa⟩ := List.mem_flatMap.1 ho
    obtain ⟨r, hr, _⟩ := hmem a o hoa
    exact ⟨r, hr⟩

/-- C59, seed check: a seed that is not an `int` is refused. -/
theorem bootstrap_seed_refused (draw : κ → List ι → ℕ → List ι) (N : ℕ) :
    crossSectionalSamples draw obs alt choice N (some false) = .error .valueError := rfl

end C59

/-- The shares theorem applies: three observations, two alternatives, observation 7 in rows 0-1 and
so on, drawing the first id again and again. -/
example : ∃ samples, crossSectionalSamples (fun _ ids size => (List.range size).map fun _ => ids.head!)
      ![(7 : ℤ), 7, 8, 8, 9, 9] ![(1 : ℤ), 2, 1, 2, 1, 2] ![(1 : ℤ), 0, 0, 1, 1, 0] 2 none =
        .ok samples ∧ samples = [[7, 7, 8], [7, 7, 8]] := ⟨_, rfl, rfl⟩

example : EachChoseOne ![(7 : ℤ), 7, 8, 8, 9, 9] ![(1 : ℤ), 2, 1, 2, 1, 2]
    ![(1 : ℤ), 0, 0, 1, 1, 0] := by
  unfold EachChoseOne Chose
  intro r
  fin_cases r
  · exact ⟨1, by decide, by rintro b ⟨q, h⟩; revert h; fin_cases q <;> simp <;> omega⟩
  · exact ⟨1, by decide, by rintro b ⟨q, h⟩; revert h; fin_cases q <;> simp <;> omega⟩
  · exact ⟨2, by decide, by rintro b ⟨q, h⟩; revert h; fin_cases q <;> simp <;> omega⟩
  · exact ⟨2, by decide, by rintro b ⟨q, h⟩; revert h; fin_cases q <;> simp <;> omega⟩
  · exact ⟨1, by decide, by rintro b ⟨q, h⟩; revert h; fin_cases q <;> simp <;> omega⟩
  · exact ⟨1, by decide, by rintro b ⟨q, h⟩; revert h; fin_cases q <;> simp <;> omega⟩

example : ValidDraw (κ := ℤ) (fun _ (ids : List ℤ) size => (List.range size).map fun _ => ids.head!) := by
  intro a ids size h
  refine ⟨by simp, fun x hx => ?_⟩
  obtain ⟨i, hi, rfl⟩ := List.mem_map.1 hx
  rcases h with h | h
  · exact List.head!_mem_self h
  · subst h; simp at hi

/-! ## C60 -/

section C60

variable [LinearOrder V]

theorem rows_ofRows (cols : List String) (rows : List (String → V)) :
    (Frame.ofRows cols rows).rows = rows := by
  unfold Frame.rows Frame.ofRows
  exact List.ofFn_get rows

theorem rows_filter (df : Frame V) (p : (String → V) → Bool) :
    df.rows.filter p =
      ((List.finRange df.numRows).filter fun r => p fun c => df.val c r).map
        fun r c => df.val c r := by
  unfold Frame.rows
  rw [List.ofFn_eq_map, List.filter_map]
  rfl

theorem obsRows_eq (df : Frame V) (col : String) (o : V) :
    obsRows df col o = df.rows.filter fun row => row col = o :=
  (rows_filter df fun row => decide (row col = o)).symm

private lemma loc_rows (df : Frame V) (col : String) (o : V) :
    (df.loc fun r => df.val col r = o).rows = obsRows df col o := rows_ofRows _ _

/-- The row with the bootstrap id written into column `c`. -/
private def tagRow (c : String) (x : V) (row : String → V) : String → V :=
  fun d => if d = c then x else row d

private lemma setCol_rows (df : Frame V) (c : String) (x : V) :
    (df.setCol c x).rows = df.rows.map (tagRow c x) := by
  unfold Frame.rows
  rw [List.map_ofFn]
  rfl

private lemma groupby_lookup (df : Frame V) (obsCol : String) (o : V) (ho : o ∈ df.colList obsCol) :
    (groupbyDict df obsCol).lookup o = some (df.loc fun r => df.val obsCol r = o) := by
  refine lookup_of_mem_nodup (l := groupbyDict df obsCol) ?_
    (List.mem_map.2 ⟨o, mem_npUnique.2 ho, rfl⟩)
  have : (groupbyDict df obsCol).map Prod.fst = npUnique (df.colList obsCol) := by
    unfold groupbyDict
    rw [List.map_map]
    simp [Function.comp_def]
  rw [this]
  exact npUnique_nodup _

/-- The rows the loop produces from position `k` on. -/
private def expRows [NatCast V] (df : Frame V) (obsCol bootCol : String) :
    ℕ → List V → List (String → V)
  | _, [] => []
  | k, o :: os =>
    (obsRows df obsCol o).map (tagRow bootCol ((k + 1 : ℕ) : V)) ++
      expRows df obsCol bootCol (k + 1) os

private lemma componentFrames_ok [NatCast V] (df : Frame V) (obsCol bootCol : String)
    (hb : bootCol ∉ df.columns) (sample : List V) (hs : ∀ o ∈ sample, o ∈ df.colList obsCol)
    (k : ℕ) :
    ∃ fs, componentFrames (groupbyDict df obsCol) bootCol k sample = .ok fs ∧
      fs.length = sample.length ∧ fs.flatMap Frame.rows = expRows df obsCol bootCol k sample ∧
      ∀ f ∈ fs, f.columns = df.columns ++ [bootCol] := by
  induction sample generalizing k with
  | nil => exact ⟨[], rfl, rfl, rfl, by simp⟩
  | cons o os ih =>
    obtain ⟨fs, h1, h2, h3, h4⟩ := ih (fun p hp => hs p (List.mem_cons_of_mem _ hp)) (k + 1)
    refine ⟨(df.loc fun r => df.val obsCol r = o).setCol bootCol ((k + 1 : ℕ) : V) :: fs, ?_, ?_,
      ?_, ?_⟩
    · unfold componentFrames
      simp only [groupby_lookup df obsCol o (hs o List.mem_cons_self), h1, bind, Except.bind]
    · simp [h2]
    · rw [List.flatMap_cons, h3, setCol_rows, loc_rows]
      rfl
    · intro f hf
      rcases List.mem_cons.1 hf with rfl | hf
      · simp [Frame.setCol, Frame.loc, Frame.ofRows, hb]
      · exact h4 f hf

private lemma expRows_filter [Ring V] [IsStrictOrderedRing V] (df : Frame V)
    (obsCol bootCol : String) (sample : List V) (k j : ℕ) :
    (expRows df obsCol bootCol k sample).filter (fun row => row bootCol = ((j + 1 : ℕ) : V)) =
      if h : k ≤ j ∧ j - k < sample.length then
        (obsRows df obsCol (sample[j - k]'h.2)).map (tagRow bootCol ((j + 1 : ℕ) : V))
      else [] := by
  induction sample generalizing k with
  | nil => simp [expRows]
  | cons o os ih =>
    unfold expRows
    rw [List.filter_append, ih (k + 1), List.filter_map]
    have htag : ∀ row : String → V,
        ((fun row : String → V => decide (row bootCol = ((j + 1 : ℕ) : V))) ∘
          tagRow bootCol ((k + 1 : ℕ) : V)) row = decide (k = j) := by
      intro row
      simp only [Function.comp_apply, tagRow, if_true, Nat.cast_inj]
      congr 1
      simp
    by_cases hkj : k = j
    · subst hkj
      have e1 : (obsRows df obsCol o).filter ((fun row : String → V =>
          decide (row bootCol = ((k + 1 : ℕ) : V))) ∘ tagRow bootCol ((k + 1 : ℕ) : V)) =
          obsRows df obsCol o := by
        rw [List.filter_eq_self]
        intro row _
        rw [htag]; simp
      rw [e1, dif_neg (by omega), dif_pos (by simp)]
      simp
    · have e1 : (obsRows df obsCol o).filter ((fun row : String → V =>
          decide (row bootCol = ((j + 1 : ℕ) : V))) ∘ tagRow bootCol ((k + 1 : ℕ) : V)) = [] := by
        rw [List.filter_eq_nil_iff]
        intro row _
        rw [htag]; simp [hkj]
      rw [e1, List.map_nil, List.nil_append]
      by_cases h : k + 1 ≤ j ∧ j - (k + 1) < os.length
      · rw [dif_pos h, dif_pos ⟨by omega, by simp only [List.length_cons]; omega⟩]
        have : j - k = (j - (k + 1)) + 1 := by omega
        simp only [this, List.getElem_cons_succ]
      · rw [dif_neg h, dif_neg]
        simp only [List.length_cons]
        omega

private lemma expRows_ids [NatCast V] (df : Frame V) (obsCol bootCol : String) (sample : List V)
    (k : ℕ) (row : String → V) (h : row ∈ expRows df obsCol bootCol k sample) :
    ∃ j, k ≤ j ∧ j < k + sample.length ∧ row bootCol = ((j + 1 : ℕ) : V) := by
  induction sample generalizing k with
  | nil => simp [expRows] at h
  | cons o os ih =>
    unfold expRows at h
    rcases List.mem_append.1 h with h | h
    · obtain ⟨row', _, rfl⟩ := List.mem_map.1 h
      exact ⟨k, le_rfl, by simp, by simp [tagRow]⟩
    · obtain ⟨j, h1, h2, h3⟩ := ih (k + 1) h
      exact ⟨j, by omega, by simp only [List.length_cons]; omega, h3⟩

private lemma expRows_sorted [Ring V] [IsStrictOrderedRing V] (df : Frame V)
    (obsCol bootCol : String) (sample : List V) (k : ℕ) :
    ((expRows df obsCol bootCol k sample).map fun row => row bootCol).Pairwise (· ≤ ·) := by
  induction sample generalizing k with
  | nil => simp [expRows]
  | cons o os ih =>
    unfold expRows
    rw [List.map_append, List.pairwise_append]
    refine ⟨?_, ih (k + 1), ?_⟩
    · rw [List.map_map]
      have : ((fun row : String → V => row bootCol) ∘ tagRow bootCol ((k + 1 : ℕ) : V)) =
          fun _ => ((k + 1 : ℕ) : V) := by
        funext row; simp [tagRow]
      rw [this, List.map_const']
      exact List.pairwise_replicate.2 (Or.inr le_rfl)
    · intro x hx y hy
      obtain ⟨r1, h1, rfl⟩ := List.mem_map.1 hx
      obtain ⟨r2, h2, rfl⟩ := List.mem_map.1 hy
      obtain ⟨r1', _, rfl⟩ := List.mem_map.1 h1
      obtain ⟨j, hj1, _, hj3⟩ := expRows_ids df obsCol bootCol os (k + 1) r2 h2
      rw [hj3]
      simp only [tagRow, if_true]
      exact_mod_cast by omega

private lemma colList_eq (df : Frame V) (c : String) : df.colList c = df.rows.map fun row => row c := by
  unfold Frame.colList Frame.rows
  rw [List.map_ofFn]
  rfl

/-- **C60**.  For sampled ids that occur in the data, the bootstrap table has the data's columns and the
bootstrap id column; every row carries one of the bootstrap ids `1..n`; the rows with bootstrap id
`k + 1` are the rows of the `k`-th sampled observation, in order and with all their cells (so an
observation sampled twice appears twice, under different ids); the ids ascend, so the rows come in
sample order; and the bootstrap id column passes the contiguity check of the estimation code. -/
theorem bootstrap_dataframe [Ring V] [IsStrictOrderedRing V] (df : Frame V)
    (obsCol bootCol : String) (hobs : obsCol ∈ df.columns) (hboot : bootCol ∉ df.columns)
    (sample : List V) (hne : sample ≠ []) (hs : ∀ o ∈ sample, ∃ r, df.val obsCol r = o) :
    ∃ out, createBootstrapDataframe df obsCol sample (groupbyDict df obsCol) bootCol = .ok out ∧
      out.columns = df.columns ++ [bootCol] ∧
      (∀ r, ∃ k, k < sample.length ∧ out.val bootCol r = ((k + 1 : ℕ) : V)) ∧
      (∀ k (hk : k < sample.length), obsRows out bootCol ((k + 1 : ℕ) : V) =
        (obsRows df obsCol sample[k]).map
          fun row c => if c = bootCol then ((k + 1 : ℕ) : V) else row c) ∧
      (∀ r q, r ≤ q → out.val bootCol r ≤ out.val bootCol q) ∧
      ensureContiguity (out.colList bootCol) = .ok () := by
  have hs' : ∀ o ∈ sample, o ∈ df.colList obsCol := by
    intro o ho
    obtain ⟨r, hr⟩ := hs o ho
    exact List.mem_ofFn.2 ⟨r, hr⟩
  obtain ⟨fs, h1, h2, h3, h4⟩ := componentFrames_ok df obsCol bootCol hboot sample hs' 0
  obtain ⟨f, fs', rfl⟩ : ∃ f fs', fs = f :: fs' := by
    cases fs with
    | nil => exact absurd (List.length_eq_zero_iff.1 (by simpa using h2.symm)) hne
    | cons f fs' => exact ⟨f, fs', rfl⟩
  set out : Frame V := Frame.ofRows f.columns ((f :: fs').flatMap Frame.rows) with hout
  have hrows : out.rows = expRows df obsCol bootCol 0 sample := by
    rw [hout, rows_ofRows, h3]
  have hsorted : (out.colList bootCol).Pairwise (· ≤ ·) := by
    rw [colList_eq, hrows]
    exact expRows_sorted df obsCol bootCol sample 0
  refine ⟨out, ?_, ?_, ?_, ?_, ?_, ensureContiguity_ok.2 hsorted⟩
  · unfold createBootstrapDataframe
    simp only [checkColumnExistence, if_true, hobs, not_true_eq_false, if_false, hboot,
      ensureResampledInDf, bind, Except.bind, h1, Bool.false_eq_true]
    rw [if_neg (not_not.2 hs')]
    rfl
  · exact h4 f List.mem_cons_self
  · intro r
    have : (fun c => out.val c r) ∈ out.rows := List.mem_ofFn.2 ⟨r, rfl⟩
    rw [hrows] at this
    obtain ⟨j, _, hj2, hj3⟩ := expRows_ids df obsCol bootCol sample 0 _ this
    exact ⟨j, by omega, hj3⟩
  · intro k hk
    rw [obsRows_eq, hrows, expRows_filter, dif_pos ⟨by omega, by simpa using hk⟩]
    simp only [Nat.sub_zero]
    rfl
  · intro r q hrq
    rcases eq_or_lt_of_le hrq with rfl | hlt
    · exact le_rfl
    · have := List.pairwise_ofFn.1 hsorted hlt
      exact this

/-- C60, refusals: a missing observation id column, a bootstrap id column that exists already, a
sampled id that does not occur in the data, or an empty sample. -/
theorem bootstrap_dataframe_refusals [NatCast V] (df : Frame V) (obsCol bootCol : String)
    (sample : List V) (dict : List (V × Frame V))
    (h : obsCol ∉ df.columns ∨ bootCol ∈ df.columns ∨ (∃ o ∈ sample, ∀ r, df.val obsCol r ≠ o) ∨
      sample = []) :
    createBootstrapDataframe df obsCol sample dict bootCol = .error .valueError := by
  unfold createBootstrapDataframe
  by_cases h1 : obsCol ∈ df.columns
  · by_cases h2 : bootCol ∈ df.columns
    · simp [checkColumnExistence, h1, h2, bind, Except.bind]
    · by_cases h3 : sample = []
      · simp [checkColumnExistence, h1, h2, bind, Except.bind, ensureResampledInDf, h3,
          componentFrames, concatFrames]
      obtain ⟨o, ho, hr⟩ : ∃ o ∈ sample, ∀ r, df.val obsCol r ≠ o := by
        rcases h with h | h | h | h
        · exact absurd h1 h
        · exact absurd h h2
        · exact h
        · exact absurd h h3
      have : ¬ ∀ o ∈ sample, o ∈ df.colList obsCol := by
        intro hall
        obtain ⟨r, hr'⟩ := List.mem_ofFn.1 (hall o ho)
        exact hr r hr'
      simp [checkColumnExistence, h1, h2, bind, Except.bind, ensureResampledInDf, this]
  · simp [checkColumnExistence, h1, bind, Except.bind]

/-- C60, the array of bootstrap ids made next to the array of samples has its shape, and the entry in
every row and in column `j` (from zero) is `j + 1`: the ids the bootstrap tables use. -/
theorem bootstrap_id_array (rows cols : ℕ) :
    (bootstrapIdArray rows cols).length = rows ∧
    ∀ row ∈ bootstrapIdArray rows cols, row.length = cols ∧
      ∀ (j : ℕ) (hj : j < row.length), row[j] = j + 1 := by
  have key : ∀ (n s : ℕ), s < n →
      reshapeRow (List.replicate n ((List.range cols).map (· + 1))).flatten cols s =
        (List.range cols).map (· + 1) := by
    intro n s hs
    obtain ⟨k, rfl⟩ := Nat.exists_eq_add_of_lt hs
    unfold reshapeRow
    rw [show s + k + 1 = s + (1 + k) by ring, List.replicate_add, List.flatten_append,
      List.drop_left' (by simp), List.replicate_add]
    simp
  refine ⟨by simp [bootstrapIdArray], ?_⟩
  intro row hrow
  obtain ⟨s, hs, rfl⟩ := List.mem_map.1 hrow
  rw [key rows s (List.mem_range.1 hs)]
  simp

/-- The hypotheses of the bootstrap table theorem are met with a repeated observation. -/
example :
    let df : Frame ℤ :=
      ⟨["obs", "x"], 3, fun c r => if c = "obs" then ![(5 : ℤ), 5, 6] r else ![10, 20, 30] r⟩
    ∃ out, createBootstrapDataframe df "obs" [6, 5, 6] (groupbyDict df "obs") "bootstrap_id" =
      .ok out ∧
    out.colList "bootstrap_id" = [1, 2, 2, 3] ∧ out.colList "x" = [30, 10, 20, 30] :=
  ⟨_, rfl, by decide, by decide⟩

end C60

/-! ## C61 -/

section C61

variable [LinearOrder V]

/-- **C61**.  There is one jackknife table per distinct observation id, in ascending order of the ids,
and it has the data's columns and exactly the rows of the other observations, in their original
order. -/
theorem jackknife_frames (df : Frame V) (obsCol : String) :
    ∃ ids : List V, ids.Pairwise (· < ·) ∧ (∀ o, o ∈ ids ↔ ∃ r, df.val obsCol r = o) ∧
      (jackknifeFrames df obsCol).length = ids.length ∧
      ∀ k (hk : k < ids.length) (hk' : k < (jackknifeFrames df obsCol).length),
        (jackknifeFrames df obsCol)[k].columns = df.columns ∧
        (jackknifeFrames df obsCol)[k].rows = otherRows df obsCol ids[k] := by
  refine ⟨npSort (npUnique (df.colList obsCol)), ?_, ?_, by simp [jackknifeFrames], ?_⟩
  · rw [npSort_npUnique]; exact npUnique_strict _
  · intro o
    rw [mem_npSort, mem_npUnique]
    unfold Frame.colList
    rw [List.mem_ofFn]
  · intro k hk hk'
    simp only [jackknifeFrames, List.getElem_map]
    refine ⟨rfl, ?_⟩
    exact rows_ofRows _ _

example : (jackknifeFrames
    (⟨["obs", "x"], 4, fun c r => if c = "obs" then ![(5 : ℤ), 5, 2, 6] r else ![10, 20, 30, 40] r⟩ :
      Frame ℤ) "obs").map (fun f => f.colList "x") = [[10, 20, 40], [30, 40], [10, 20, 30]] := by
  decide

end C61

end Pylogit
