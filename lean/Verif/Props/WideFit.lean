import Verif.Props.FitLogLik
import Verif.Props.WideOrder

/-!
# Models of converted wide data maximise the log-likelihood of the wide data (C107)
-/

open Matrix

namespace Pylogit

open Spec

noncomputable section

/-! ## Helper lemmas -/

namespace WideFit

lemma sum_get {α : Type} (P : List α) {n : ℕ} (hn : n = P.length) (F : α → ℝ) :
    ∑ r : Fin n, F (P.get (r.cast hn)) = (P.map F).sum := by
  subst hn
  rw [← List.sum_ofFn]
  congr 1
  exact List.ext_getElem (by simp) fun i h1 h2 => by simp

/-- The available (observation, alternative) pairs of a wide table, in order. -/
def pairs (d : WideSpec) (w : Frame ℝ) : List (Fin w.numRows × ℝ) :=
  (List.finRange w.numRows).flatMap fun i => (d.choiceSet w i).map fun a => (i, a)

lemma mem_pairs {d : WideSpec} {w : Frame ℝ} {p : Fin w.numRows × ℝ} :
    p ∈ pairs d w ↔ p.2 ∈ d.choiceSet w p.1 := by
  obtain ⟨i, a⟩ := p
  simp [pairs]

lemma pairs_sum (d : WideSpec) (w : Frame ℝ) (F : Fin w.numRows × ℝ → ℝ) :
    ((pairs d w).map F).sum = ∑ i, ((d.choiceSet w i).map fun a => F (i, a)).sum := by
  rw [pairs, List.map_flatMap, List.flatMap_def, List.sum_flatten, List.map_map, ← List.sum_ofFn, List.ofFn_eq_map]
  congr 1
  refine List.map_congr_left fun i _ => ?_
  simp only [Function.comp_apply, List.map_map]
  rfl

lemma mem_choiceSet {d : WideSpec} {w : Frame ℝ} {i : Fin w.numRows} {a : ℝ} :
    a ∈ d.choiceSet w i ↔ ∃ c, (a, c) ∈ d.avail ∧ w.val c i = 1 := by
  simp [WideSpec.choiceSet]

lemma mem_of_lookup_avail {l : List (ℝ × String)} {a : ℝ} {c : String} (h : l.lookup a = some c) :
    (a, c) ∈ l := by
  induction l with
  | nil => simp at h
  | cons p l ih =>
    rw [List.lookup_cons] at h
    by_cases e : a = p.1
    · subst e
      simp only [beq_self_eq_true, Option.some.injEq] at h
      subst h
      simp
    · have e' : (a == p.1) = false := by simpa using e
      rw [e'] at h
      exact List.mem_cons_of_mem _ (ih h)

/-- What is known about an accepted wide table. -/
structure Accepted (d : WideSpec) (w : Frame ℝ) : Prop where
  sorted : SortedKeys d.avail
  zeroOne : ZeroOneAvail w d.avail
  ids : Function.Injective (w.val d.obsCol)
  keys : ∀ a, a ∈ d.avail.map Prod.fst ↔ ∃ i, w.val d.choiceCol i = a
  chosen : ∀ i, w.val d.choiceCol i ∈ d.choiceSet w i

lemma choiceSet_nodup {d : WideSpec} {w : Frame ℝ} (h : SortedKeys d.avail) (i : Fin w.numRows) :
    (d.choiceSet w i).Nodup := by
  have h1 : (d.avail.map Prod.fst).Nodup := h.imp fun h => h.ne
  exact h1.sublist (List.filter_sublist.map _)

lemma accepted_of {d : WideSpec} {w : Frame ℝ} {isNull : ℝ → Bool} {rows : List (LongRow ℝ)}
    (hs : SortedKeys d.avail) (h01 : ZeroOneAvail w d.avail)
    (h : convertWideToLong isNull w d.indVars d.altSpecific d.avail d.obsCol d.choiceCol = .ok rows) :
    Accepted d w ∧ rows = (pairs d w).map fun p =>
      longRow w d.indVars d.altSpecific d.obsCol d.choiceCol p.1 p.2 := by
  have hrows := wide_to_long_rows_partial hs h01 h
  obtain ⟨h1, h2, h3, -⟩ := convertWideToLong_ok h
  refine ⟨⟨hs, h01, h1, h2, fun i => ?_⟩, ?_⟩
  · rw [mem_choiceSet]
    by_cases hz : ∃ ac ∈ d.avail, w.val ac.2 i = 0
    · obtain ⟨c, hc, h1⟩ := h3 i hz
      exact ⟨c, mem_of_lookup_avail hc, h1⟩
    · obtain ⟨ac, hac, he⟩ := List.mem_map.1 ((h2 _).2 ⟨i, rfl⟩)
      refine ⟨ac.2, he ▸ hac, ?_⟩
      rcases h01 ac hac i with h | h
      · exact absurd ⟨ac, hac, h⟩ hz
      · exact h
  · rw [hrows, pairs, List.map_flatMap]
    refine List.flatMap_congr fun i _ => ?_
    rw [WideSpec.choiceSet, List.map_map, List.map_map]
    rfl

lemma cells_value {d : WideSpec} {w : Frame ℝ}
    (hn : (longColumns d.obsCol d.altName d.choiceCol d.indVars d.altSpecific).Nodup) (i : Fin w.numRows) (a : ℝ)
    {v : String} (hv : v ∈ longColumns d.obsCol d.altName d.choiceCol d.indVars d.altSpecific) :
    (longRow w d.indVars d.altSpecific d.obsCol d.choiceCol i a).cells.getD
      ((longColumns d.obsCol d.altName d.choiceCol d.indVars d.altSpecific).idxOf v) 0 = d.value w i a v := by
  -- the cells are the values of the columns
  have key : (longRow w d.indVars d.altSpecific d.obsCol d.choiceCol i a).cells =
      (longColumns d.obsCol d.altName d.choiceCol d.indVars d.altSpecific).map (d.value w i a) := by
    simp only [longColumns, List.cons_append, List.nil_append, List.nodup_cons, List.mem_cons,
      List.mem_append, not_or] at hn
    obtain ⟨⟨n1, n2, n3, n4⟩, ⟨n5, n6, n7⟩, ⟨n8, n9⟩, hn⟩ := hn
    have hdis := List.disjoint_of_nodup_append hn
    simp only [longColumns, LongRow.cells, longRow, List.cons_append, List.nil_append, List.map_cons,
      List.map_append, List.map_map]
    have e1 : d.value w i a d.obsCol = w.val d.obsCol i := by simp [WideSpec.value]
    have e2 : d.value w i a (d.altName.getD "alt_id") = a := by
      simp [WideSpec.value, Ne.symm n1]
    have e3 : d.value w i a d.choiceCol = if w.val d.choiceCol i = a then 1 else 0 := by
      simp [WideSpec.value, Ne.symm n2, Ne.symm n5]
    rw [e1, e2, e3]
    congr 4
    · refine List.map_congr_left fun v hv => ?_
      have m1 : v ≠ d.obsCol := fun e => n3 (e ▸ hv)
      have m2 : v ≠ d.altName.getD "alt_id" := fun e => n6 (e ▸ hv)
      have m3 : v ≠ d.choiceCol := fun e => n8 (e ▸ hv)
      simp [WideSpec.value, m1, m2, m3, hv]
    · refine List.map_congr_left fun nc hnc => ?_
      have hm : nc.1 ∈ d.altSpecific.map Prod.fst := List.mem_map.2 ⟨nc, hnc, rfl⟩
      have m1 : nc.1 ≠ d.obsCol := fun e => n4 (e ▸ hm)
      have m2 : nc.1 ≠ d.altName.getD "alt_id" := fun e => n7 (e ▸ hm)
      have m3 : nc.1 ≠ d.choiceCol := fun e => n9 (e ▸ hm)
      have m4 : nc.1 ∉ d.indVars := fun e => hdis e hm
      have hl : d.altSpecific.lookup nc.1 = some nc.2 :=
        lookup_of_mem_nodup (List.Nodup.of_append_right hn) hnc
      simp [WideSpec.value, m1, m2, m3, m4, hl]
  have hi := List.idxOf_lt_length_of_mem hv
  rw [key, List.getD_eq_getElem?_getD, List.getElem?_map, List.getElem?_eq_getElem hi, Option.map_some,
    Option.getD_some, List.getElem_idxOf hi]

/-- The cells of a table are the values of the variables for the listed pairs. -/
def Tabulates (d : WideSpec) (w t : Frame ℝ) : Prop :=
  ∃ hN : t.numRows = (pairs d w).length, ∀ r, ∀ v ∈ t.columns,
    t.val v r = d.value w ((pairs d w).get (r.cast hN)).1 ((pairs d w).get (r.cast hN)).2 v

lemma longFrame_tabulates {d : WideSpec} {w : Frame ℝ}
    (hn : (longColumns d.obsCol d.altName d.choiceCol d.indVars d.altSpecific).Nodup) {rows : List (LongRow ℝ)}
    (hr : rows = (pairs d w).map fun p => longRow w d.indVars d.altSpecific d.obsCol d.choiceCol p.1 p.2) :
    Tabulates d w (longFrame (longColumns d.obsCol d.altName d.choiceCol d.indVars d.altSpecific) rows) := by
  have hN : rows.length = (pairs d w).length := by rw [hr, List.length_map]
  refine ⟨hN, fun r v hv => ?_⟩
  rw [← cells_value hn _ _ hv]
  have : rows[r] = longRow w d.indVars d.altSpecific d.obsCol d.choiceCol
      ((pairs d w).get (r.cast hN)).1 ((pairs d w).get (r.cast hN)).2 := by
    subst hr
    exact List.getElem_map _
  change rows[r].cells.getD _ 0 = _
  rw [this]
  rfl

lemma intercept_tabulates {d : WideSpec} {w L : Frame ℝ} (spec : List (String × PyVal ℝ))
    (hc : L.columns = longColumns d.obsCol d.altName d.choiceCol d.indVars d.altSpecific)
    (h : Tabulates d w L) : Tabulates d w (addIntercept spec L) := by
  obtain ⟨hN, hv⟩ := h
  unfold addIntercept
  split_ifs with h
  · refine ⟨hN, fun r v hm => ?_⟩
    rcases List.mem_append.1 hm with hm | hm
    · have hv' : v ≠ "intercept" := fun e => h.2 (e ▸ hm)
      change (if v = "intercept" then 1 else L.val v r) = _
      rw [if_neg hv']
      exact hv r v hm
    · rw [List.mem_singleton] at hm
      subst hm
      have h2 := h.2
      rw [hc] at h2
      simp only [longColumns, List.cons_append, List.nil_append, List.mem_cons, List.mem_append,
        not_or] at h2
      have hl : d.altSpecific.lookup "intercept" = none := by
        rw [List.lookup_eq_none_iff]
        intro p hp
        have : "intercept" ≠ p.1 := fun e => h2.2.2.2.2 (e ▸ List.mem_map.2 ⟨p, hp, rfl⟩)
        simpa using this
      simp [WideSpec.value, h2.1, h2.2.1, h2.2.2.1, h2.2.2.2.1, hl]
  · exact ⟨hN, hv⟩

lemma pairs_ascending {d : WideSpec} {w : Frame ℝ} (h : Accepted d w) :
    ((pairs d w).map fun p => w.val d.obsCol p.1).Pairwise (· ≤ ·) ↔
      (w.colList d.obsCol).Pairwise (· ≤ ·) := by
  rw [Frame.colList, List.ofFn_eq_map, List.pairwise_map, List.pairwise_map, pairs, List.pairwise_flatMap]
  constructor
  · rintro ⟨-, h2⟩
    refine h2.imp fun {i j} hij => ?_
    exact hij (i, w.val d.choiceCol i) (by simpa using h.chosen i) (j, w.val d.choiceCol j)
      (by simpa using h.chosen j)
  · intro h2
    refine ⟨fun i _ => ?_, h2.imp fun {i j} hij => ?_⟩
    · rw [List.pairwise_map]
      exact List.pairwise_of_forall fun _ _ => le_refl _
    · intro x hx y hy
      obtain ⟨_, -, rfl⟩ := List.mem_map.1 hx
      obtain ⟨_, -, rfl⟩ := List.mem_map.1 hy
      exact hij

lemma pairs_alts {d : WideSpec} {w : Frame ℝ} (h : Accepted d w) (a : ℝ) :
    a ∈ d.avail.map Prod.fst ↔ ∃ p ∈ pairs d w, p.2 = a := by
  constructor
  · intro ha
    obtain ⟨i, rfl⟩ := (h.keys a).1 ha
    exact ⟨(i, w.val d.choiceCol i), mem_pairs.2 (h.chosen i), rfl⟩
  · rintro ⟨p, hp, rfl⟩
    obtain ⟨c, hc, -⟩ := mem_choiceSet.1 (mem_pairs.1 hp)
    exact List.mem_map.2 ⟨_, hc, rfl⟩

/-- The sum over the rows of the long table is the log-likelihood of the wide table. -/
lemma pairs_logLik {d : WideSpec} {w : Frame ℝ} (h : Accepted d w) {n : ℕ}
    (hN : n = (pairs d w).length) (u : Fin w.numRows → ℝ → ℝ) :
    (∑ r : Fin n, (if w.val d.choiceCol ((pairs d w).get (r.cast hN)).1 = ((pairs d w).get (r.cast hN)).2
        then 1 else 0) *
      Real.log (clippedLogit (fun r : Fin n => w.val d.obsCol ((pairs d w).get (r.cast hN)).1)
        (fun r => u ((pairs d w).get (r.cast hN)).1 ((pairs d w).get (r.cast hN)).2) r)) =
      d.logLik w fun i a => clip700 (u i a) := by
  let F : Fin w.numRows × ℝ → ℝ := fun p => (if w.val d.choiceCol p.1 = p.2 then 1 else 0) *
    Real.log (Real.exp (clip700 (u p.1 p.2)) /
      ((d.choiceSet w p.1).map fun a => Real.exp (clip700 (u p.1 a))).sum)
  have hF : ∀ r : Fin n, (if w.val d.choiceCol ((pairs d w).get (r.cast hN)).1 =
      ((pairs d w).get (r.cast hN)).2 then (1 : ℝ) else 0) *
      Real.log (clippedLogit (fun r : Fin n => w.val d.obsCol ((pairs d w).get (r.cast hN)).1)
        (fun r => u ((pairs d w).get (r.cast hN)).1 ((pairs d w).get (r.cast hN)).2) r) =
      F ((pairs d w).get (r.cast hN)) := by
    intro r
    simp only [F, clippedLogit, logitProb]
    congr 3
    unfold rowsOf
    rw [Finset.sum_filter]
    rw [sum_get (pairs d w) hN fun p => if w.val d.obsCol p.1 = w.val d.obsCol
      ((pairs d w).get (r.cast hN)).1 then Real.exp (clip700 (u p.1 p.2)) else 0]
    rw [pairs_sum, Finset.sum_eq_single ((pairs d w).get (r.cast hN)).1]
    · simp
    · intro j _ hj
      have : w.val d.obsCol j ≠ w.val d.obsCol ((pairs d w).get (r.cast hN)).1 := fun e => hj (h.ids e)
      simp only [if_neg this]
      simp
    · simp
  rw [Finset.sum_congr rfl fun r _ => hF r, sum_get, pairs_sum, WideSpec.logLik]
  refine Finset.sum_congr rfl fun i _ => ?_
  obtain ⟨l1, l2, hl⟩ := List.append_of_mem (h.chosen i)
  have hnd := choiceSet_nodup (w := w) h.sorted i
  generalize hL : Real.log (Real.exp (clip700 (u i (w.val d.choiceCol i))) /
    ((d.choiceSet w i).map fun a => Real.exp (clip700 (u i a))).sum) = L
  have hG : ∀ a, F (i, a) = if w.val d.choiceCol i = a then L else 0 := by
    intro a
    simp only [F]
    split_ifs with e
    · rw [← hL, e, one_mul]
    · rw [zero_mul]
  simp only [hG]
  rw [hl] at hnd ⊢
  rw [List.nodup_append] at hnd
  obtain ⟨-, n2, n3⟩ := hnd
  rw [List.nodup_cons] at n2
  have z1 : (l1.map fun a => if w.val d.choiceCol i = a then L else 0).sum = 0 := by
    refine List.sum_eq_zero fun x hx => ?_
    obtain ⟨a, ha, rfl⟩ := List.mem_map.1 hx
    rw [if_neg]
    exact fun e => n3 a ha _ (by simp) e.symm
  have z2 : (l2.map fun a => if w.val d.choiceCol i = a then L else 0).sum = 0 := by
    refine List.sum_eq_zero fun x hx => ?_
    obtain ⟨a, ha, rfl⟩ := List.mem_map.1 hx
    rw [if_neg]
    exact fun e => n2.1 (e ▸ ha)
  rw [List.map_append, List.map_cons, List.sum_append, List.sum_cons, z1, z2]
  simp

lemma index_value {d : WideSpec} {w t : Frame ℝ} {altCol : String} {hN : t.numRows = (pairs d w).length}
    (hv : ∀ r, ∀ v ∈ t.columns,
      t.val v r = d.value w ((pairs d w).get (r.cast hN)).1 ((pairs d w).get (r.cast hN)).2 v)
    (halt : ∀ r, t.val altCol r = ((pairs d w).get (r.cast hN)).2) {cols : List (ColDesc ℝ)}
    (hc : ∀ c ∈ cols, ∀ v, (c = .same v ∨ (∃ b, c = .alt v b) ∨ ∃ l, c = .group v l) → v ∈ t.columns)
    (beta : List ℝ) (r : Fin t.numRows) :
    rowIndex t altCol cols beta r =
      d.index w cols beta ((pairs d w).get (r.cast hN)).1 ((pairs d w).get (r.cast hN)).2 := by
  unfold rowIndex WideSpec.index
  congr 1
  refine List.map_congr_left fun p hp => ?_
  congr 1
  have hmem : p.1 ∈ cols := (List.of_mem_zip hp).1
  cases hpc : p.1 with
  | same v => exact hv r v (hc _ hmem v (.inl hpc))
  | alt v b =>
    simp only [ColDesc.value, ColDesc.valueAt, halt, hv r v (hc _ hmem v (.inr (.inl ⟨b, hpc⟩)))]
  | group v l =>
    simp only [ColDesc.value, ColDesc.valueAt, halt, hv r v (hc _ hmem v (.inr (.inr ⟨l, hpc⟩)))]

/-- The rows of a model built on a converted wide table. -/
theorem model_rows {env : Env ℝ} {ty : String} {d : WideSpec} {w long : Frame ℝ}
    {isNull : ℝ → Bool} (hs : SortedKeys d.avail) (h01 : ZeroOneAvail w d.avail)
    (hconv : convertWideToLongTable isNull w d.indVars d.altSpecific d.avail d.obsCol d.choiceCol d.altName =
      .ok long)
    {a : ModelArgs ℝ} {m : ChoiceModel ℝ} (hm : createChoiceModel env ty long a = .ok m)
    (hobs : a.obsIdCol = d.obsCol)
    (halt : a.altIdCol = d.altName.getD "alt_id") (hch : a.choiceCol = d.choiceCol)
    {s : List (String × SpecVal ℝ)} (hspec : a.specification = encodeAll s) :
    Accepted d w ∧ m.args.specification = encodeAll s ∧
    AltsOf m.data m.args.altIdCol (d.avail.map Prod.fst) ∧
    ((m.data.colList m.args.obsIdCol).Pairwise (· ≤ ·) ↔ (w.colList d.obsCol).Pairwise (· ≤ ·)) ∧
    ∃ hN : m.data.numRows = (pairs d w).length,
      (∀ r, m.data.val m.args.altIdCol r = ((pairs d w).get (r.cast hN)).2) ∧
      (∀ r, m.data.val m.args.obsIdCol r = w.val d.obsCol ((pairs d w).get (r.cast hN)).1) ∧
      (∀ r, m.data.val m.args.choiceCol r = if w.val d.choiceCol ((pairs d w).get (r.cast hN)).1 =
        ((pairs d w).get (r.cast hN)).2 then 1 else 0) ∧
      (∀ beta r, rowIndex m.data m.args.altIdCol (specColumns (d.avail.map Prod.fst) s) beta r =
        d.index w (specColumns (d.avail.map Prod.fst) s) beta ((pairs d w).get (r.cast hN)).1
          ((pairs d w).get (r.cast hN)).2) ∧
      ∀ v, v = d.obsCol ∨ v ∈ d.indVars → v ∈ m.data.columns ∧
        ∀ r, m.data.val v r = w.val v ((pairs d w).get (r.cast hN)).1 := by
  -- the converted table
  unfold convertWideToLongTable at hconv
  simp only [bind, Except.bind] at hconv
  split at hconv
  · cases hconv
  rename_i rows hrows
  split_ifs at hconv with hn
  rw [Except.ok.injEq] at hconv
  obtain ⟨hacc, hrows⟩ := accepted_of hs h01 hrows
  have hlong : Tabulates d w long := hconv ▸ longFrame_tabulates hn hrows
  have hcols : long.columns = longColumns d.obsCol d.altName d.choiceCol d.indVars d.altSpecific := by
    rw [← hconv]; rfl
  -- the model
  obtain ⟨hown, hdata, -⟩ := built_own hm
  have hsp := created_spec hm
  obtain ⟨hN, hv⟩ : Tabulates d w m.data := hdata ▸ intercept_tabulates m.args.specification hcols hlong
  have hargs : m.args.altIdCol = a.altIdCol ∧ m.args.obsIdCol = a.obsIdCol ∧ m.args.choiceCol = a.choiceCol ∧
      ∀ v ∈ m.args.specification.map Prod.fst, v ∈ m.data.columns := by
    have hm' := hm
    unfold createChoiceModel at hm'
    split at hm'
    · cases hm'
    · obtain ⟨h1, -, h2, h3, h4, -⟩ := classInit_ok hm'
      refine ⟨h2, h3, h4, ?_⟩
      have h5 := (initBuild_iff.1 (baseInit_ok.1 h1).2).1
      rw [hdata] at h5
      exact h5
  obtain ⟨e1, e2, e3, hvars⟩ := hargs
  rw [halt] at e1
  rw [hobs] at e2
  rw [hch] at e3
  have n' := hn
  simp only [longColumns, List.cons_append, List.nil_append, List.nodup_cons, List.mem_cons,
    List.mem_append, not_or] at n'
  obtain ⟨⟨n1, n2, -, -⟩, ⟨n3, -, -⟩, -⟩ := n'
  have v1 : ∀ r, m.data.val m.args.altIdCol r = ((pairs d w).get (r.cast hN)).2 := by
    intro r
    rw [hv r _ hown.alt, e1]
    simp [WideSpec.value, Ne.symm n1]
  have v2 : ∀ r, m.data.val m.args.obsIdCol r = w.val d.obsCol ((pairs d w).get (r.cast hN)).1 := by
    intro r
    rw [hv r _ hown.obs, e2]
    simp [WideSpec.value]
  have v3 : ∀ r, m.data.val m.args.choiceCol r = if w.val d.choiceCol ((pairs d w).get (r.cast hN)).1 =
      ((pairs d w).get (r.cast hN)).2 then 1 else 0 := by
    intro r
    rw [hv r _ hown.choice, e3]
    simp only [WideSpec.value, if_neg (Ne.symm n2), if_neg (Ne.symm n3), if_true]
  have ha : AltsOf m.data m.args.altIdCol (d.avail.map Prod.fst) := by
    refine ⟨hs, fun b => ?_⟩
    rw [pairs_alts hacc]
    constructor
    · rintro ⟨p, hp, rfl⟩
      obtain ⟨k, hk⟩ := List.get_of_mem hp
      refine ⟨k.cast hN.symm, ?_⟩
      rw [v1, ← hk]
      rfl
    · rintro ⟨r, rfl⟩
      exact ⟨_, List.get_mem _ _, (v1 r).symm⟩
  have hasc : (m.data.colList m.args.obsIdCol).Pairwise (· ≤ ·) ↔ (w.colList d.obsCol).Pairwise (· ≤ ·) := by
    rw [← pairs_ascending hacc]
    have : m.data.colList m.args.obsIdCol = (pairs d w).map fun p => w.val d.obsCol p.1 := by
      refine List.ext_getElem (by simp [Frame.colList, hN]) fun i h1 h2 => ?_
      simp [Frame.colList, v2]
    rw [this]
  have hidx : ∀ beta r, rowIndex m.data m.args.altIdCol (specColumns (d.avail.map Prod.fst) s) beta r =
      d.index w (specColumns (d.avail.map Prod.fst) s) beta ((pairs d w).get (r.cast hN)).1
        ((pairs d w).get (r.cast hN)).2 := by
    intro beta r
    refine index_value hv v1 ?_ _ r
    intro c hc v hcv
    apply hvars
    rw [hsp, hspec]
    obtain ⟨kv, hkv, hc⟩ := List.mem_flatMap.1 hc
    have : v = kv.1 := by
      obtain ⟨k, sv⟩ := kv
      cases sv with
      | allSame =>
        simp only [SpecVal.columns, List.mem_singleton] at hc
        subst hc
        rcases hcv with h | ⟨_, h⟩ | ⟨_, h⟩ <;> cases h
        rfl
      | allDiff =>
        simp only [SpecVal.columns, List.mem_map] at hc
        obtain ⟨_, -, rfl⟩ := hc
        rcases hcv with h | ⟨_, h⟩ | ⟨_, h⟩ <;> cases h
        rfl
      | groups l =>
        simp only [SpecVal.columns, List.mem_map] at hc
        obtain ⟨g, -, rfl⟩ := hc
        cases g <;> rcases hcv with h | ⟨_, h⟩ | ⟨_, h⟩ <;> cases h <;> rfl
    subst this
    exact List.mem_map.2 ⟨_, List.mem_map.2 ⟨kv, hkv, rfl⟩, rfl⟩
  have hind : ∀ v, v = d.obsCol ∨ v ∈ d.indVars → v ∈ m.data.columns ∧
      ∀ r, m.data.val v r = w.val v ((pairs d w).get (r.cast hN)).1 := by
    intro v hv'
    have n2 := hn
    simp only [longColumns, List.cons_append, List.nil_append, List.nodup_cons, List.mem_cons,
      List.mem_append, not_or] at n2
    obtain ⟨⟨m1, m2, m3, -⟩, ⟨m4, m5, -⟩, ⟨m6, -⟩, -⟩ := n2
    have hin : v ∈ m.data.columns := by
      have hl : v ∈ long.columns := by
        rw [hcols]
        simp only [longColumns, List.cons_append, List.nil_append, List.mem_cons, List.mem_append]
        rcases hv' with rfl | h
        · exact Or.inl rfl
        · exact Or.inr (Or.inr (Or.inr (Or.inl h)))
      rw [← hdata]
      unfold addIntercept
      split_ifs
      · exact List.mem_append_left _ hl
      · exact hl
    refine ⟨hin, fun r => ?_⟩
    rw [hv r v hin]
    rcases hv' with rfl | h
    · simp [WideSpec.value]
    · have k1 : v ≠ d.obsCol := fun e => m3 (e ▸ h)
      have k2 : v ≠ d.altName.getD "alt_id" := fun e => m5 (e ▸ h)
      have k3 : v ≠ d.choiceCol := fun e => m6 (e ▸ h)
      simp [WideSpec.value, k1, k2, k3, h]
  exact ⟨hacc, hsp.trans hspec, ha, hasc, hN, v1, v2, v3, hidx, hind⟩

end WideFit

open WideFit

/-! ## C107: wide tables -/

/-- **C107** (wide table). Convert a wide table with 0/1 availabilities and an availability dictionary in
ascending key order, and build a logit-type model on the returned table.  Let the parameter arrays hold, in the
documented order, the intercept and shape of every alternative, and one index coefficient per described column.
The function of the parameters that a fit maximises is then the log-likelihood of the wide table: over its
observations, the logarithm of the logit probability of the choice among the available alternatives, for (clipped)
utilities computed from the wide columns.  If the observation ids of the wide table are not in ascending order,
the fit raises `ValueError`. -/
theorem fit_maximises_wide_logLik_partial {env : Env ℝ} {ty : String} {d : WideSpec} {w long : Frame ℝ}
    {isNull : ℝ → Bool} (hs : SortedKeys d.avail) (h01 : ZeroOneAvail w d.avail)
    (hconv : convertWideToLongTable isNull w d.indVars d.altSpecific d.avail d.obsCol d.choiceCol d.altName =
      .ok long)
    {a : ModelArgs ℝ} {m : ChoiceModel ℝ} (hm : createChoiceModel env ty long a = .ok m)
    (hcls : m.cls ≠ .nested ∧ m.cls ≠ .mixed) (hobs : a.obsIdCol = d.obsCol)
    (halt : a.altIdCol = d.altName.getD "alt_id") (hch : a.choiceCol = d.choiceCol)
    {s : List (String × SpecVal ℝ)} (hspec : a.specification = encodeAll s)
    (hasym : m.cls = .asym → 2 ≤ d.avail.length) {p : ParamArrays} {q : AltParams}
    (hp : HoldsFor m.cls (d.avail.map Prod.fst) m.args.interceptRefPos m.args.shapeRefPos p q)
    (hlen : p.index.length = (specColumns (d.avail.map Prod.fst) s).length) :
    (fitInputs m m.data).logLik id m.cls m.args.interceptRefPos m.args.shapeRefPos p =
      if (w.colList d.obsCol).Pairwise (· ≤ ·) then
        .ok (d.logLik w fun i b => clip700 (rowUtility m.cls (d.avail.map Prod.fst) q b
          (d.index w (specColumns (d.avail.map Prod.fst) s) p.index i b)))
      else .error .valueError := by
  obtain ⟨hacc, hsp, ha, hasc, hN, v1, v2, v3, hidx, -⟩ := model_rows hs h01 hconv hm hobs halt hch hspec
  rw [fit_maximises_table_logLik hm hcls hsp ha (by simpa using hasym) hp hlen]
  simp only [hasc]
  split_ifs
  · congr 1
    rw [← pairs_logLik hacc hN]
    refine Finset.sum_congr rfl fun r _ => ?_
    have f1 : m.data.val m.args.obsIdCol = fun r => w.val d.obsCol ((pairs d w).get (r.cast hN)).1 :=
      funext v2
    rw [v3, f1]
    simp only [v1, hidx]
  · rfl

/-- Where the order of the keys is harmless, the sorted dictionary gives the same table. -/
theorem convert_any_order {d : WideSpec} {w long : Frame ℝ} {isNull : ℝ → Bool} {s : List (ℝ × String)}
    (hperm : s.Perm d.avail) (hs : SortedKeys s) (h01 : ZeroOneAvail w d.avail)
    (hcells : ∀ i, (d.avail.map fun ac => w.val ac.2 i) = s.map fun ac => w.val ac.2 i)
    (hconv : convertWideToLongTable isNull w d.indVars d.altSpecific d.avail d.obsCol d.choiceCol d.altName =
      .ok long) :
    convertWideToLongTable isNull w d.indVars d.altSpecific s d.obsCol d.choiceCol d.altName = .ok long := by
  unfold convertWideToLongTable at hconv ⊢
  simp only [bind, Except.bind] at hconv ⊢
  split at hconv
  · cases hconv
  rename_i rows hrows
  have hk : (d.avail.map Prod.fst).Nodup :=
    (hperm.map Prod.fst).nodup_iff.1 (hs.imp fun h => ne_of_lt h)
  have h2 := convertWideToLong_perm hperm hk hrows
  have e : rows = wideGridRows w d.indVars d.altSpecific s d.obsCol d.choiceCol := by
    have hright := wide_to_long_right_iff hperm hs h01 hrows
    have h3 := (hright.out 2 1).1 hcells
    exact h3.trans (wide_to_long_rows_partial hs (fun ac hac i => h01 ac (hperm.mem_iff.1 hac) i) h2).symm
  rw [h2, ← e]
  exact hconv

/-- **C107** (wide table, any harmless key order). The same when the availability dictionary is in any order in
which every row of the wide table has the same availability cells as in ascending key order (`s` is the sorted
dictionary); by `wide_to_long_right_iff` these are exactly the orders for which the converted table is right. -/
theorem fit_maximises_wide_logLik_any_order_partial {env : Env ℝ} {ty : String} {d : WideSpec} {w long : Frame ℝ}
    {isNull : ℝ → Bool} {s : List (ℝ × String)} (hperm : s.Perm d.avail) (hs : SortedKeys s)
    (h01 : ZeroOneAvail w d.avail)
    (hcells : ∀ i, (d.avail.map fun ac => w.val ac.2 i) = s.map fun ac => w.val ac.2 i)
    (hconv : convertWideToLongTable isNull w d.indVars d.altSpecific d.avail d.obsCol d.choiceCol d.altName =
      .ok long)
    {a : ModelArgs ℝ} {m : ChoiceModel ℝ} (hm : createChoiceModel env ty long a = .ok m)
    (hcls : m.cls ≠ .nested ∧ m.cls ≠ .mixed) (hobs : a.obsIdCol = d.obsCol)
    (halt : a.altIdCol = d.altName.getD "alt_id") (hch : a.choiceCol = d.choiceCol)
    {sp : List (String × SpecVal ℝ)} (hspec : a.specification = encodeAll sp)
    (hasym : m.cls = .asym → 2 ≤ d.avail.length) {p : ParamArrays} {q : AltParams}
    (hp : HoldsFor m.cls (s.map Prod.fst) m.args.interceptRefPos m.args.shapeRefPos p q)
    (hlen : p.index.length = (specColumns (s.map Prod.fst) sp).length) :
    (fitInputs m m.data).logLik id m.cls m.args.interceptRefPos m.args.shapeRefPos p =
      if (w.colList d.obsCol).Pairwise (· ≤ ·) then
        .ok (d.logLik w fun i b => clip700 (rowUtility m.cls (s.map Prod.fst) q b
          (d.index w (specColumns (s.map Prod.fst) sp) p.index i b)))
      else .error .valueError := by
  have hconv' := convert_any_order hperm hs h01 hcells hconv
  have key := fit_maximises_wide_logLik_partial (d := { d with avail := s }) hs
    (fun ac hac i => h01 ac (hperm.mem_iff.1 hac) i) hconv' hm hcls hobs halt hch hspec
    (fun h => (hasym h).trans hperm.length_eq.ge) hp hlen
  rw [key]
  refine if_congr Iff.rfl (congrArg Except.ok ?_) rfl
  unfold WideSpec.logLik
  refine Finset.sum_congr rfl fun i _ => ?_
  congr 2
  exact (((hperm.filter _).map _).map _).sum_eq

/-! ## Concrete tables -/

/-- Three observations; alternative 2 is not available to the first. -/
def exWideFit : Frame ℝ where
  columns := ["id", "choice", "av1", "av2", "av3", "t1", "t2"]
  numRows := 3
  val := fun c =>
    if c = "id" then ![10, 20, 30]
    else if c = "choice" then ![1, 2, 3]
    else if c = "av2" then ![0, 1, 1]
    else if c = "t1" then ![4, 5, 6]
    else if c = "t2" then ![7, 8, 9]
    else ![1, 1, 1]

/-- Its description, for an availability dictionary. -/
def exWideSpec (avail : List (ℝ × String)) : WideSpec where
  indVars := []
  altSpecific := [("t", [(1, "t1"), (2, "t2")])]
  avail := avail
  obsCol := "id"
  choiceCol := "choice"
  altName := none

/-- A multinomial logit model with two constants and one variable. -/
def exWideArgs : ModelArgs ℝ :=
  { altIdCol := "alt_id", obsIdCol := "id", choiceCol := "choice"
    specification := encodeAll [("intercept", SpecVal.groups [.inl 2, .inl 3]), ("t", SpecVal.allSame)]
    names := none, interceptRefPos := .none, shapeRefPos := .none, interceptNames := none
    shapeNames := none, nestSpec := none, mixingIdCol := none, mixingVars := none }

theorem exWide_choices : npSort (npUnique (exWideFit.colList "choice")) = [1, 2, 3] := by
  refine altsOf_eq ⟨by norm_num, fun a => ?_⟩
  simp only [List.mem_cons, List.not_mem_nil, or_false]
  constructor
  · rintro (rfl | rfl | rfl)
    · exact ⟨(0 : Fin 3), rfl⟩
    · exact ⟨(1 : Fin 3), rfl⟩
    · exact ⟨(2 : Fin 3), rfl⟩
  · rintro ⟨r, rfl⟩
    change Fin 3 at r
    fin_cases r <;> simp [exWideFit]

/-- The conversion accepts the table with any order of the three keys. -/
theorem exWide_accepts {avail : List (ℝ × String)}
    (h : avail = [(1, "av1"), (2, "av2"), (3, "av3")] ∨ avail = [(2, "av2"), (1, "av1"), (3, "av3")]) :
    convertWideToLongTable (fun _ => false) exWideFit [] [("t", [(1, "t1"), (2, "t2")])] avail "id" "choice" none =
      .ok (longFrame ["id", "alt_id", "choice", "t"]
        (wideGridRows exWideFit [] [("t", [(1, "t1"), (2, "t2")])] avail "id" "choice")) := by
  have hc : ∀ x : ℝ, x = 1 ∨ x = 2 ∨ x = 3 → ∃ i, exWideFit.val "choice" i = x := by
    rintro x (rfl | rfl | rfl)
    · exact ⟨(0 : Fin 3), rfl⟩
    · exact ⟨(1 : Fin 3), rfl⟩
    · exact ⟨(2 : Fin 3), rfl⟩
  have := convertWideToLong_accepts (isNull := fun _ : ℝ => false) (w := exWideFit) (indVars := [])
    (altSpecific := [("t", [(1, "t1"), (2, "t2")])]) (avail := avail) (obsCol := "id") (choiceCol := "choice")
    (by simp) (by rcases h with rfl | rfl <;> simp [exWideFit])
    (by simp only [forall_eq, List.mem_cons, List.not_mem_nil, or_false]
        rintro ac (rfl | rfl) <;> simp [exWideFit]) (by simp [exWideFit])
    (by
      intro i j hij
      change Fin 3 at i j
      fin_cases i <;> fin_cases j <;> simp [exWideFit] at hij ⊢)
    (by simp) (by rcases h with rfl | rfl <;> simp <;> exact ⟨hc _ (by simp), hc _ (by simp), hc _ (by simp)⟩)
    (by simp only [forall_eq, List.mem_cons, List.not_mem_nil, or_false]
        rintro ac (rfl | rfl) <;> exact hc _ (by simp))
    (by
      intro i
      have hk : (avail.map Prod.fst).Nodup := by rcases h with rfl | rfl <;> norm_num
      change Fin 3 at i
      fin_cases i
      · exact ⟨"av1", lookup_of_mem_nodup hk (show ((1 : ℝ), "av1") ∈ avail by
          rcases h with rfl | rfl <;> simp), by simp [exWideFit]⟩
      · exact ⟨"av2", lookup_of_mem_nodup hk (show ((2 : ℝ), "av2") ∈ avail by
          rcases h with rfl | rfl <;> simp), by simp [exWideFit]⟩
      · exact ⟨"av3", lookup_of_mem_nodup hk (show ((3 : ℝ), "av3") ∈ avail by
          rcases h with rfl | rfl <;> simp), by simp [exWideFit]⟩)
  unfold convertWideToLongTable
  rw [this]
  simp only [bind, Except.bind]
  rw [if_neg (by simp [longColumns])]
  rfl

/-- The model is built on every table with these columns and alternatives. -/
theorem exWide_model (env : Env ℝ) (henv : env.badCol = fun _ => false) {L : Frame ℝ}
    (hcol : L.columns = ["id", "alt_id", "choice", "t"]) (hal : AltsOf L "alt_id" [1, 2, 3]) :
    ∃ m, createChoiceModel env "MNL" L exWideArgs = .ok m ∧ m.cls = .mnl ∧ m.args = exWideArgs ∧
      m.data = addIntercept exWideArgs.specification L := by
  have hcol' : (addIntercept exWideArgs.specification L).columns =
      ["id", "alt_id", "choice", "t", "intercept"] := by
    simp [addIntercept, exWideArgs, encodeAll, hcol]
  have hal' : AltsOf (addIntercept exWideArgs.specification L) "alt_id" [1, 2, 3] := by
    unfold addIntercept
    split_ifs
    · exact ⟨hal.ascending, hal.mem⟩
    · exact hal
  obtain ⟨D, hd⟩ : ∃ D, createDesignMatrix env.fmt env.fmtList (addIntercept exWideArgs.specification L)
      exWideArgs.specification "alt_id" none = .ok D :=
    ⟨_, design_success env.fmt env.fmtList (addIntercept exWideArgs.specification L)
      [("intercept", SpecVal.groups [.inl 2, .inl 3]), ("t", .allSame)] "alt_id" [1, 2, 3] hal'
      (by simp [hcol']) (by simp [hcol']) (by simp [SpecVal.ValidFor, groupIds]) (by simp [SpecVal.columns])⟩
  have hk : modelTypeToClass.lookup "MNL" = some .mnl := by decide
  have hargs : argsFor .mnl exWideArgs = exWideArgs := rfl
  refine ⟨⟨.mnl, displayNameOf (classOf .mnl), addIntercept exWideArgs.specification L, D.1, D.2, exWideArgs,
    none⟩, ?_, rfl, rfl, rfl⟩
  simp only [createChoiceModel, hk]
  rw [classInit_iff, hargs]
  refine ⟨by simp [exWideArgs], baseInit_ok.2 ⟨initChecks_ok.2 ?_, ?_⟩⟩
  · simp [exWideArgs, hcol, checkNamesAndRef, checkNestSpecArg]
  · rw [initBuild_iff]
    refine ⟨?_, ?_, D, hd, ?_, rfl⟩
    · rw [hcol']
      simp [exWideArgs, encodeAll]
    · simp [henv]
    · simp [exWideArgs]

/-- A table whose alternative ids are those of the given rows. -/
theorem longFrame_alts {cols : List String} {rows : List (LongRow ℝ)} {alt : String} {alts : List ℝ}
    (hc : cols.idxOf alt = 1) (hs : alts.Pairwise (· < ·)) (hm : ∀ a, a ∈ alts ↔ ∃ r ∈ rows, r.alt = a) :
    AltsOf (longFrame cols rows) alt alts := by
  refine ⟨hs, fun a => ?_⟩
  have hv : ∀ r : Fin rows.length, (longFrame cols rows).val alt r = rows[r].alt := by
    intro r
    simp only [longFrame, hc, LongRow.cells]
    rfl
  rw [hm]
  constructor
  · rintro ⟨x, hx, rfl⟩
    obtain ⟨k, hk, rfl⟩ := List.mem_iff_getElem.1 hx
    exact ⟨(⟨k, hk⟩ : Fin rows.length), hv ⟨k, hk⟩⟩
  · rintro ⟨r, rfl⟩
    exact ⟨_, List.getElem_mem _, (hv r).symm⟩

/-- Non-vacuity of `fit_maximises_table_logLik` and `fit_maximises_wide_logLik_partial`: the conversion and the
construction succeed, and at every coefficients `b2`, `b3`, `bt` the fit computes the log-likelihood of the wide
table. -/
example (env : Env ℝ) (henv : env.badCol = fun _ => false) (b2 b3 bt : ℝ) :
    ∃ long m, convertWideToLongTable (fun _ => false) exWideFit [] [("t", [(1, "t1"), (2, "t2")])]
        [(1, "av1"), (2, "av2"), (3, "av3")] "id" "choice" none = .ok long ∧
      createChoiceModel env "MNL" long exWideArgs = .ok m ∧
      (fitInputs m m.data).logLik id .mnl .none .none ⟨[b2, b3, bt], none, none, none⟩ =
        .ok ((exWideSpec [(1, "av1"), (2, "av2"), (3, "av3")]).logLik exWideFit fun i a =>
          clip700 ((if a = 2 then 1 else 0) * b2 + ((if a = 3 then 1 else 0) * b3 +
            (if a = 1 then exWideFit.val "t1" i else if a = 2 then exWideFit.val "t2" i else 0) * bt))) := by
  have hacc := exWide_accepts (Or.inl rfl)
  obtain ⟨m, hm, hcls, hargs, -⟩ := exWide_model env henv (L := longFrame ["id", "alt_id", "choice", "t"]
      (wideGridRows exWideFit [] [("t", [(1, "t1"), (2, "t2")])] [(1, "av1"), (2, "av2"), (3, "av3")] "id"
        "choice")) rfl (longFrame_alts (by decide) (by norm_num) (by
    intro a
    simp only [wideGridRows, exWide_choices]
    simp [exWideFit, List.finRange_succ, List.filterMap_cons]
    tauto))
  refine ⟨_, m, hacc, hm, ?_⟩
  have h01 : ZeroOneAvail exWideFit [(1, "av1"), (2, "av2"), (3, "av3")] := by
    intro ac hac i
    change Fin 3 at i
    simp only [List.mem_cons, List.not_mem_nil, or_false] at hac
    rcases hac with rfl | rfl | rfl <;> fin_cases i <;> simp [exWideFit]
  have key := fit_maximises_wide_logLik_partial (d := exWideSpec [(1, "av1"), (2, "av2"), (3, "av3")])
    (w := exWideFit) (p := ⟨[b2, b3, bt], none, none, none⟩) (q := ⟨fun _ => 0, fun _ => 0⟩)
    (s := [("intercept", SpecVal.groups [.inl 2, .inl 3]), ("t", SpecVal.allSame)])
    (show SortedKeys _ by norm_num [SortedKeys, exWideSpec]) h01 hacc hm (by simp [hcls]) rfl rfl rfl rfl
    (by simp [hcls]) (by
      rw [hcls]
      exact ⟨fun _ _ _ => rfl, by simp, by simp, by simp⟩) (by simp [specColumns, SpecVal.columns])
  rw [hcls, hargs] at key
  change _ = _ at key
  have hasc : (exWideFit.colList (exWideSpec [(1, "av1"), (2, "av2"), (3, "av3")]).obsCol).Pairwise (· ≤ ·) := by
    rw [Frame.colList, List.pairwise_ofFn]
    intro i j hij
    change Fin 3 at i j
    fin_cases i <;> fin_cases j <;> simp [exWideFit, exWideSpec] at hij ⊢ <;> norm_num
  rw [if_pos hasc] at key
  refine key.trans ?_
  congr 2
  funext i a
  congr 1
  simp only [rowUtility, WideSpec.index, specColumns, SpecVal.columns, ColDesc.valueAt, WideSpec.value,
    exWideSpec]
  have b21 : ((2 : ℝ) == 1) = false := by norm_num
  by_cases a1 : a = 1
  · subst a1; simp [List.lookup]
  · by_cases a2 : a = 2
    · subst a2; simp [List.lookup, b21]
    · have e1 : (a == 1) = false := by simpa using a1
      have e2 : (a == 2) = false := by simpa using a2
      simp [List.lookup, e1, e2, a1, a2]

/-- The rows returned for the same table when the availability dictionary lists alternative 2 first. -/
private def exWrongRows : List (LongRow ℝ) :=
  [⟨10, 2, 0, [], [7]⟩, ⟨10, 3, 0, [], [0]⟩, ⟨20, 1, 0, [], [5]⟩, ⟨20, 2, 1, [], [8]⟩, ⟨20, 3, 0, [], [0]⟩,
    ⟨30, 1, 0, [], [6]⟩, ⟨30, 2, 0, [], [9]⟩, ⟨30, 3, 1, [], [0]⟩]

private lemma exWrong_rows : wideGridRows exWideFit [] [("t", [(1, "t1"), (2, "t2")])]
    [(2, "av2"), (1, "av1"), (3, "av3")] "id" "choice" = exWrongRows := by
  have b21 : ((2 : ℝ) == 1) = false := by norm_num
  have b31 : ((3 : ℝ) == 1) = false := by norm_num
  have b32 : ((3 : ℝ) == 2) = false := by norm_num
  simp only [wideGridRows, exWide_choices]
  simp [exWideFit, List.finRange_succ, List.filterMap_cons, exWrongRows, List.lookup, b21, b31, b32]

private lemma exWrong_sum {t : Frame ℝ}
    (ht : t = addIntercept exWideArgs.specification (longFrame ["id", "alt_id", "choice", "t"] exWrongRows)) :
    ∑ r, t.val "choice" r * Real.log (clippedLogit (t.val "id") (fun _ => 0) r) = 2 * Real.log (1 / 3) := by
  rw [addIntercept, if_pos (by simp [exWideArgs, encodeAll, longFrame])] at ht
  subst ht
  have h0 : ∀ x : Fin 8 → ℝ, clippedLogit x (fun _ => 0) = fun r =>
      1 / ((Finset.univ.filter fun s => x s = x r).card : ℝ) := by
    intro x
    funext r
    simp [clippedLogit, logitProb, clip700, rowsOf]
  have e1 : (fun r : Fin 8 => (longFrame ["id", "alt_id", "choice", "t"] exWrongRows).val "id" r) =
      ![10, 10, 20, 20, 20, 30, 30, 30] := by
    funext r
    fin_cases r <;> rfl
  have e2 : (fun r : Fin 8 => (longFrame ["id", "alt_id", "choice", "t"] exWrongRows).val "choice" r) =
      ![0, 0, 0, 1, 0, 0, 0, 1] := by
    funext r
    fin_cases r <;> rfl
  change ∑ r : Fin 8, (fun r : Fin 8 => (longFrame ["id", "alt_id", "choice", "t"] exWrongRows).val "choice" r) r *
    Real.log (clippedLogit (fun r : Fin 8 => (longFrame ["id", "alt_id", "choice", "t"] exWrongRows).val "id" r)
      (fun _ => 0) r) = _
  rw [e1, e2, h0]
  have c1 : (Finset.univ.filter fun s : Fin 8 =>
      (![10, 10, 20, 20, 20, 30, 30, 30] : Fin 8 → ℝ) s = 20) = {2, 3, 4} := by
    ext s; fin_cases s <;> simp
  have c2 : (Finset.univ.filter fun s : Fin 8 =>
      (![10, 10, 20, 20, 20, 30, 30, 30] : Fin 8 → ℝ) s = 30) = {5, 6, 7} := by
    ext s; fin_cases s <;> simp
  rw [Finset.sum_eq_add (3 : Fin 8) 7 (by decide)]
  · have f3 : (![10, 10, 20, 20, 20, 30, 30, 30] : Fin 8 → ℝ) 3 = 20 := rfl
    have f7 : (![10, 10, 20, 20, 20, 30, 30, 30] : Fin 8 → ℝ) 7 = 30 := rfl
    have g3 : (![0, 0, 0, 1, 0, 0, 0, 1] : Fin 8 → ℝ) 3 = 1 := rfl
    have g7 : (![0, 0, 0, 1, 0, 0, 0, 1] : Fin 8 → ℝ) 7 = 1 := rfl
    have k1 : ({2, 3, 4} : Finset (Fin 8)).card = 3 := by decide
    have k2 : ({5, 6, 7} : Finset (Fin 8)).card = 3 := by decide
    simp only [f3, f7, g3, g7, c1, c2, k1, k2]
    push_cast
    ring
  · intro c _ hc
    fin_cases c <;> simp at hc ⊢
  · simp
  · simp

/-- **C107** (fails for other key orders). With an availability dictionary that lists alternative 2 before
alternative 1, the table is accepted and a model is built, but the choice of the first observation, among two
alternatives, is lost: at zero coefficients the fit computes `2 log (1/3)`, whereas the log-likelihood of the wide
table is `log (1/2) + 2 log (1/3)`. -/
theorem wide_fit_loses_choice (env : Env ℝ) (henv : env.badCol = fun _ => false) :
    ∃ long m, convertWideToLongTable (fun _ => false) exWideFit [] [("t", [(1, "t1"), (2, "t2")])]
        [(2, "av2"), (1, "av1"), (3, "av3")] "id" "choice" none = .ok long ∧
      createChoiceModel env "MNL" long exWideArgs = .ok m ∧
      (fitInputs m m.data).logLik id .mnl .none .none ⟨[0, 0, 0], none, none, none⟩ =
        .ok (2 * Real.log (1 / 3)) ∧
      (exWideSpec [(2, "av2"), (1, "av1"), (3, "av3")]).logLik exWideFit (fun _ _ => 0) =
        Real.log (1 / 2) + 2 * Real.log (1 / 3) := by
  have hacc := exWide_accepts (Or.inr rfl)
  rw [exWrong_rows] at hacc
  have hal : AltsOf (longFrame ["id", "alt_id", "choice", "t"] exWrongRows) "alt_id" [1, 2, 3] :=
    longFrame_alts (by decide) (by norm_num) (by
      intro a
      simp [exWrongRows]
      tauto)
  obtain ⟨m, hm, hcls, hargs, hdata⟩ := exWide_model env henv rfl hal
  refine ⟨_, m, hacc, hm, ?_, ?_⟩
  · have ha : AltsOf m.data m.args.altIdCol [1, 2, 3] := by
      rw [hargs, hdata]
      unfold addIntercept
      split_ifs
      · exact ⟨hal.ascending, hal.mem⟩
      · exact hal
    have key := fit_maximises_table_logLik hm (by simp [hcls]) (by rw [hargs]; rfl) ha (by simp [hcls])
      (p := ⟨[0, 0, 0], none, none, none⟩) (q := ⟨fun _ => 0, fun _ => 0⟩)
      (by rw [hcls]; exact ⟨fun _ _ _ => rfl, by simp, by simp, by simp⟩)
      (by simp [specColumns, SpecVal.columns])
    have hz : ∀ r, rowIndex m.data m.args.altIdCol (specColumns [1, 2, 3]
        [("intercept", SpecVal.groups [.inl 2, .inl 3]), ("t", SpecVal.allSame)]) [0, 0, 0] r = 0 := by
      intro r
      simp [rowIndex, specColumns, SpecVal.columns]
    simp only [hz, hcls] at key
    rw [hargs] at key
    have hasc : (m.data.colList exWideArgs.obsIdCol).Pairwise (· ≤ ·) := by
      have : m.data.colList exWideArgs.obsIdCol = [10, 10, 20, 20, 20, 30, 30, 30] := by
        rw [hdata]
        simp [addIntercept, exWideArgs, encodeAll, longFrame, Frame.colList, exWrongRows, List.ofFn_succ,
          LongRow.cells]
      rw [this]
      norm_num
    rw [if_pos hasc] at key
    exact key.trans (congrArg Except.ok (exWrong_sum hdata))
  · have h1 : ∀ i, (exWideSpec [(2, "av2"), (1, "av1"), (3, "av3")]).choiceSet exWideFit i =
        if (i : ℕ) = 0 then [1, 3] else [2, 1, 3] := by
      intro i
      change Fin 3 at i
      fin_cases i <;> simp [WideSpec.choiceSet, exWideSpec, exWideFit]
    simp only [WideSpec.logLik, h1]
    change ∑ i : Fin 3, _ = _
    rw [Fin.sum_univ_three]
    simp
    ring_nf

end

end Pylogit
