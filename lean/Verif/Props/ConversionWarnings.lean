import Mathlib.Algebra.Order.BigOperators.Group.List
import Verif.Model.ConversionWarnings
import Verif.Props.LongToWide

/-!
# C128: when the conversions warn
-/

set_option linter.unusedSectionVars false

namespace Pylogit

variable {V : Type} [LinearOrder V]

open Spec

/-! ## Counting -/

/-- Counting accounts for all columns iff all columns are named, when the names are distinct and
present. -/
theorem columnsWarning_nil_iff {df : Frame V} {used : List String} (hn : used.Nodup)
    (hm : ∀ c ∈ used, c ∈ df.columns) :
    columnsWarning used.length df = [] ↔ ∀ c ∈ df.columns, c ∈ used := by
  have h0 : columnsWarning used.length df = [] ↔ used.length = df.columns.dedup.length := by
    unfold columnsWarning
    simp only
    split_ifs with h1 h2 <;> simp [h1]
  have hs : used.toFinset ⊆ df.columns.toFinset := by
    intro c hc
    rw [List.mem_toFinset] at hc ⊢
    exact hm c hc
  rw [h0, ← List.toFinset_card_of_nodup hn, ← List.card_toFinset]
  constructor
  · intro h c hc
    have := Finset.eq_of_subset_of_card_le hs h.ge
    rw [← List.mem_toFinset, this, List.mem_toFinset]
    exact hc
  · intro h
    refine le_antisymm (Finset.card_le_card hs) (Finset.card_le_card ?_)
    intro c hc
    rw [List.mem_toFinset] at hc ⊢
    exact h c hc

theorem npUnique_card (l : List V) : (npUnique l).length = l.toFinset.card := by
  rw [List.card_toFinset]
  exact (npSort_perm _).length_eq

theorem dropDuplicates_spec {α : Type} [DecidableEq α] (l : List α) :
    (dropDuplicates l).Nodup ∧ ∀ x, x ∈ dropDuplicates l ↔ x ∈ l := by
  have key : ∀ (l acc : List α), acc.Nodup →
      (l.foldl (fun acc x => if x ∈ acc then acc else acc ++ [x]) acc).Nodup ∧
      ∀ x, x ∈ l.foldl (fun acc x => if x ∈ acc then acc else acc ++ [x]) acc ↔
        x ∈ acc ∨ x ∈ l := by
    intro l
    induction l with
    | nil => intro acc h; exact ⟨h, by simp⟩
    | cons y l ih =>
      intro acc h
      rw [List.foldl_cons]
      by_cases hy : y ∈ acc
      · rw [if_pos hy]
        refine ⟨(ih acc h).1, fun x => ?_⟩
        rw [(ih acc h).2, List.mem_cons]
        constructor
        · rintro (h | h)
          · exact Or.inl h
          · exact Or.inr (Or.inr h)
        · rintro (h | rfl | h)
          · exact Or.inl h
          · exact Or.inl hy
          · exact Or.inr h
      · rw [if_neg hy]
        have h' : (acc ++ [y]).Nodup := by
          rw [List.nodup_append]
          refine ⟨h, by simp, ?_⟩
          intro a ha b hb e
          rw [List.mem_singleton] at hb
          exact hy (hb ▸ e ▸ ha)
        refine ⟨(ih _ h').1, fun x => ?_⟩
        rw [(ih _ h').2, List.mem_append, List.mem_singleton, List.mem_cons, or_assoc]
  have := key l [] (by simp)
  exact ⟨this.1, fun x => (this.2 x).trans (by simp)⟩

theorem dropDuplicates_card {α : Type} [DecidableEq α] (l : List α) :
    (dropDuplicates l).length = l.toFinset.card := by
  rw [← List.toFinset_card_of_nodup (dropDuplicates_spec l).1]
  congr 1
  ext x
  rw [List.mem_toFinset, List.mem_toFinset, (dropDuplicates_spec l).2]

/-- One row per observation is left after dropping duplicates iff the kept variables do not vary
within observations. -/
theorem dropDuplicates_rows (df : Frame V) (indVars : List String) (obsCol : String) :
    (npUnique (df.colList obsCol)).length ≤ (dropDuplicates
      (List.ofFn fun r => (df.val obsCol r, indVars.map fun v => df.val v r))).length ∧
    ((dropDuplicates
      (List.ofFn fun r => (df.val obsCol r, indVars.map fun v => df.val v r))).length =
        (npUnique (df.colList obsCol)).length ↔
      ∀ v ∈ indVars, ConstantInObs df obsCol v) := by
  have himg : (df.colList obsCol).toFinset =
      (List.ofFn fun r => (df.val obsCol r, indVars.map fun v => df.val v r)).toFinset.image
        Prod.fst := by
    ext x
    simp [mem_colList]
  rw [dropDuplicates_card, npUnique_card, himg]
  refine ⟨Finset.card_image_le, ?_⟩
  rw [eq_comm, Finset.card_image_iff]
  constructor
  · intro h v hv r s hrs
    have := h (x₁ := (df.val obsCol r, indVars.map fun v => df.val v r))
      (x₂ := (df.val obsCol s, indVars.map fun v => df.val v s)) 
      (by simp only [List.coe_toFinset, List.mem_ofFn]; exact ⟨r, rfl⟩)
      (by simp only [List.coe_toFinset, List.mem_ofFn]; exact ⟨s, rfl⟩) hrs
    exact List.map_inj_left.1 (Prod.mk.inj this).2 v hv
  · rintro h a ha b hb e
    simp only [List.coe_toFinset, Set.mem_ofPred_eq, List.mem_ofFn] at ha hb
    obtain ⟨r, rfl⟩ := ha
    obtain ⟨s, rfl⟩ := hb
    simp only at e
    refine Prod.ext e ?_
    exact List.map_congr_left fun v hv => h v hv r s e

/-- Entries of a list found in another list without repetitions. -/
theorem filter_mem_length {l ids : List V} (hl : l.Nodup) :
    (l.filter fun a => decide (a ∈ ids)).length ≤ ids.length ∧
    ((l.filter fun a => decide (a ∈ ids)).length = ids.length ↔ ids.Nodup ∧ ∀ a ∈ ids, a ∈ l) := by
  have hf : (l.filter fun a => decide (a ∈ ids)).Nodup := hl.filter _
  have hsub : (l.filter fun a => decide (a ∈ ids)).Subperm ids :=
    hf.subperm fun a ha => by simpa using (List.mem_filter.1 ha).2
  refine ⟨hsub.length_le, ?_, ?_⟩
  · intro h
    have hp := hsub.perm_of_length_le h.ge
    exact ⟨hp.nodup_iff.1 hf, fun a ha => (List.mem_filter.1 (hp.mem_iff.2 ha)).1⟩
  · rintro ⟨h1, h2⟩
    exact List.Perm.length_eq ((List.perm_ext_iff_of_nodup hf h1).2 fun a => by
      simp only [List.mem_filter, decide_eq_true_eq]
      exact ⟨fun h => h.2, fun h => ⟨h2 a h, h⟩⟩)

theorem finRange_filter_get_length (l : List V) (p : V → Bool) :
    ((List.finRange l.length).filter fun a => p (l.get a)).length = (l.filter p).length := by
  rw [← List.countP_eq_length_filter, ← List.countP_eq_length_filter]
  conv_rhs => rw [← List.map_get_finRange l, List.countP_map]
  rfl

theorem lookup_nodup {β : Type} {d : List (String × β)} (h : (d.map Prod.fst).Nodup)
    {k : String} {v : β} (hm : (k, v) ∈ d) : d.lookup k = some v := by
  induction d with
  | nil => simp at hm
  | cons x d ih =>
    obtain ⟨a, b⟩ := x
    rw [List.map_cons, List.nodup_cons] at h
    rw [List.lookup_cons]
    rcases List.mem_cons.1 hm with e | hm'
    · obtain ⟨rfl, rfl⟩ := Prod.mk.inj e
      simp
    · have : k ≠ a := by
        rintro rfl
        exact h.1 (List.mem_map.2 ⟨_, hm', rfl⟩)
      rw [beq_eq_false_iff_ne.2 this]
      exact ih h.2 hm'

theorem lookup_absent {β : Type} {d : List (String × β)} {k : String}
    (h : k ∉ d.map Prod.fst) : d.lookup k = none := by
  induction d with
  | nil => rfl
  | cons x d ih =>
    obtain ⟨a, b⟩ := x
    rw [List.map_cons, List.mem_cons, not_or] at h
    rw [List.lookup_cons, beq_eq_false_iff_ne.2 h.1]
    exact ih h.2

/-- The number of columns of one variable. -/
theorem varColumns_length [Semiring V] {fmt : V → String} {altNames : Option (List (V × String))}
    {df : Frame V} {obsCol altCol : String} {null : V} {subset : List (String × List V)}
    {col : String} {cols : List (String × List V)}
    (h : varColumns fmt altNames df obsCol altCol null subset col = .ok cols) :
    (cols.length = match subset.lookup col with
      | none => (npUnique (df.colList altCol)).length
      | some ids => ((npUnique (df.colList altCol)).filter fun a => decide (a ∈ ids)).length) ∧
    ∀ c ∈ cols, c.2.length = (originalOrderUniqueIds (df.colList obsCol)).length := by
  unfold varColumns at h
  simp only at h
  rw [bind_ok_iff'] at h
  obtain ⟨labels, -, h⟩ := h
  have h := (Except.ok.inj h).symm
  subst h
  constructor
  · rw [List.length_map]
    cases hl : subset.lookup col with
    | none => simp [npSort_npUnique]
    | some ids =>
      simp only
      rw [finRange_filter_get_length _ fun a => decide (a ∈ ids), npSort_npUnique]
  · intro c hc
    obtain ⟨a, -, rfl⟩ := List.mem_map.1 hc
    simp

theorem forall₂_flatten_length {α β : Type} {R : α → List β → Prop} {g : α → ℕ}
    (hR : ∀ x y, R x y → y.length = g x) {l : List α} {m : List (List β)}
    (h : List.Forall₂ R l m) : m.flatten.length = (l.map g).sum := by
  induction h with
  | nil => rfl
  | cons h1 _ ih => simp [hR _ _ h1, ih]

theorem forall₂_mem_right {α β : Type} {R : α → β → Prop} {l : List α} {m : List β}
    (h : List.Forall₂ R l m) {y : β} (hy : y ∈ m) : ∃ x ∈ l, R x y := by
  induction h with
  | nil => simp at hy
  | cons h1 _ ih =>
    rcases List.mem_cons.1 hy with rfl | hy
    · exact ⟨_, by simp, h1⟩
    · obtain ⟨x, hx, hxy⟩ := ih hy
      exact ⟨x, by simp [hx], hxy⟩

theorem foldr_max_eq {l : List ℕ} {n : ℕ} (h1 : n ∈ l) (h2 : ∀ x ∈ l, x ≤ n) :
    l.foldr max 0 = n := by
  have hle : ∀ (l : List ℕ), (∀ x ∈ l, x ≤ n) → l.foldr max 0 ≤ n := by
    intro l
    induction l with
    | nil => simp
    | cons x l ih => intro h; exact max_le (h x (by simp)) (ih fun y hy => h y (by simp [hy]))
  have hge : ∀ (l : List ℕ), n ∈ l → n ≤ l.foldr max 0 := by
    intro l
    induction l with
    | nil => simp
    | cons x l ih =>
      intro h
      rw [List.foldr_cons]
      rcases List.mem_cons.1 h with rfl | h
      · exact le_max_left _ _
      · exact (ih h).trans (le_max_right _ _)
  exact le_antisymm (hle l h2) (hge l h1)

theorem sum_map_le_eq_iff {α : Type} {l : List α} {f g : α → ℕ} (h : ∀ x ∈ l, f x ≤ g x) :
    (l.map f).sum ≤ (l.map g).sum ∧
    ((l.map f).sum = (l.map g).sum ↔ ∀ x ∈ l, f x = g x) := by
  induction l with
  | nil => simp
  | cons x l ih =>
    have hx := h x (by simp)
    have ih := ih fun y hy => h y (by simp [hy])
    simp only [List.map_cons, List.sum_cons, List.mem_cons, forall_eq_or_imp, ← ih.2]
    omega

/-- The shape of the returned wide table. -/
theorem wide_shape [Ring V] {fmt : V → String} {df : Frame V}
    {indVars altSpecificVars : List String} {subset : List (String × List V)}
    {obsCol altCol choiceCol : String} {altNames : Option (List (V × String))} {null : V}
    {t : WideTable V}
    (h : buildWide fmt df indVars altSpecificVars subset obsCol altCol choiceCol altNames null =
      .ok t)
    (hn : (altSpecificVars ++ subset.map Prod.fst).Nodup) :
    t.shape = ((dropDuplicates
        (List.ofFn fun r => (df.val obsCol r, indVars.map fun v => df.val v r))).length,
      1 + (npUnique (df.colList altCol)).length + 1 + indVars.length +
        altSpecificVars.length * (npUnique (df.colList altCol)).length +
        (subset.map fun s =>
          ((npUnique (df.colList altCol)).filter fun a => decide (a ∈ s.2)).length).sum) := by
  obtain ⟨hlen, labels, -, dfs, hdfs, -, rfl⟩ := buildWide_ok_iff.1 h
  rw [mapM_ok_iff] at hdfs
  have hobs : (originalOrderUniqueIds (df.colList obsCol)).length =
      (npUnique (df.colList obsCol)).length :=
    List.Perm.length_eq <| (List.perm_ext_iff_of_nodup (originalOrder_nodup _)
      (npUnique_nodup _)).2 fun x => by rw [mem_npUnique, mem_originalOrder]
  unfold WideTable.shape WideTable.columns
  simp only
  refine Prod.ext ?_ ?_
  · refine foldr_max_eq (by simp) ?_
    intro x hx
    have hle := (dropDuplicates_rows df indVars obsCol).1
    rw [← hobs] at hle
    rw [List.mem_map] at hx
    obtain ⟨c, hc, rfl⟩ := hx
    simp only [List.mem_append, List.mem_cons, List.not_mem_nil, or_false] at hc
    rcases hc with ((((rfl | rfl) | hc) | hc) | hc)
    · simp
    · exact hlen.le
    · obtain ⟨a, -, rfl⟩ := List.mem_map.1 hc
      simpa using hle
    · obtain ⟨a, -, rfl⟩ := List.mem_map.1 hc
      simp
    · obtain ⟨cols, hcols, hc⟩ := List.mem_flatten.1 hc
      have hall : ∀ cols ∈ dfs, ∀ c ∈ cols,
          c.2.length = (originalOrderUniqueIds (df.colList obsCol)).length := by
        intro cols hcols
        obtain ⟨col, -, hcol⟩ := forall₂_mem_right hdfs hcols
        exact (varColumns_length hcol).2
      rw [hall cols hcols c hc]
      exact hle
  · have hsum := forall₂_flatten_length
      (g := fun col => match subset.lookup col with
        | none => (npUnique (df.colList altCol)).length
        | some ids => ((npUnique (df.colList altCol)).filter fun a => decide (a ∈ ids)).length)
      (fun x y hxy => (varColumns_length hxy).1) hdfs
    simp only [List.length_append, List.length_cons, List.length_nil, List.length_map,
      List.length_finRange, hsum, List.map_append, List.sum_append, npSort_npUnique]
    rw [List.nodup_append] at hn
    obtain ⟨-, hn2, hn3⟩ := hn
    have e1 : (altSpecificVars.map fun col => match subset.lookup col with
        | none => (npUnique (df.colList altCol)).length
        | some ids => ((npUnique (df.colList altCol)).filter fun a => decide (a ∈ ids)).length) =
        altSpecificVars.map fun _ => (npUnique (df.colList altCol)).length := by
      refine List.map_congr_left fun c hc => ?_
      rw [lookup_absent fun hc' => hn3 c hc c hc' rfl]
    have e2 : ((subset.map Prod.fst).map fun col => match subset.lookup col with
        | none => (npUnique (df.colList altCol)).length
        | some ids => ((npUnique (df.colList altCol)).filter fun a => decide (a ∈ ids)).length) =
        subset.map fun s =>
          ((npUnique (df.colList altCol)).filter fun a => decide (a ∈ s.2)).length := by
      rw [List.map_map]
      refine List.map_congr_left fun s hs => ?_
      simp only [Function.comp_apply]
      rw [lookup_nodup hn2 (v := s.2) hs]
    rw [e1, e2, List.map_const', List.sum_replicate, smul_eq_mul]
    omega

/-! ## Long to wide -/

/-- **C128** (long to wide, what is true). When every column is given one role, a successful
conversion is silent exactly when every column of the data has been used, every subset lists distinct
alternatives of the data, and the individual variables do not vary within observations. -/
theorem long_to_wide_silent_iff_partial [Ring V] {fmt : V → String} {df : Frame V}
    {indVars altSpecificVars : List String} {subset : List (String × List V)}
    {obsCol altCol choiceCol : String} {altNames : Option (List (V × String))} {null : V}
    {t : WideTable V}
    (h : (longToWideCall fmt df indVars altSpecificVars subset obsCol altCol choiceCol altNames
      null).1 = .ok t)
    (hn : (indVars ++ altSpecificVars ++ subset.map Prod.fst ++ [obsCol, altCol, choiceCol]).Nodup) :
    (longToWideCall fmt df indVars altSpecificVars subset obsCol altCol choiceCol altNames
      null).2 = [] ↔
    (∀ c ∈ df.columns,
      c ∈ indVars ++ altSpecificVars ++ subset.map Prod.fst ++ [obsCol, altCol, choiceCol]) ∧
    (∀ v ids, (v, ids) ∈ subset → ids.Nodup ∧ ∀ a ∈ ids, ∃ r, df.val altCol r = a) ∧
    ∀ v ∈ indVars, ConstantInObs df obsCol v := by
  unfold longToWideCall at h ⊢
  simp only at h ⊢
  cases hc : convertLongToWide fmt df indVars altSpecificVars subset obsCol altCol choiceCol
      altNames null with
  | error e => rw [hc] at h; simp at h
  | ok t' =>
    obtain ⟨h1, h2, h3, h4, -, -, -, hb⟩ := convertLongToWide_ok_iff.1 hc
    simp only [List.append_eq_nil_iff]
    have hlen : indVars.length + altSpecificVars.length + subset.length +
        [obsCol, altCol, choiceCol].length =
        (indVars ++ altSpecificVars ++ subset.map Prod.fst ++ [obsCol, altCol, choiceCol]).length := by
      simp only [List.length_append, List.length_map]
    rw [hlen, columnsWarning_nil_iff hn]
    swap
    · intro c hc
      simp only [List.mem_append] at hc
      rcases hc with ((hc | hc) | hc) | hc
      · exact h1 c hc
      · exact h2 c hc
      · exact h3 c hc
      · exact h4 c (by simp only [List.mem_cons, List.not_mem_nil, or_false] at hc ⊢; tauto)
    refine and_congr_right fun _ => ?_
    have hn' : (altSpecificVars ++ subset.map Prod.fst).Nodup := by
      rw [List.append_assoc, List.append_assoc] at hn
      have := (List.nodup_append.1 hn).2.1
      rw [← List.append_assoc] at this
      exact (List.nodup_append.1 this).1
    have hsum := sum_map_le_eq_iff (l := subset)
      (f := fun s => ((npUnique (df.colList altCol)).filter fun a => decide (a ∈ s.2)).length)
      (g := fun s => s.2.length) fun s _ => (filter_mem_length (npUnique_nodup _)).1
    rw [wide_shape hb hn']
    unfold announcedWideShape
    simp only [Prod.mk.injEq, ite_eq_left_iff, imp_false, not_not, List.cons_ne_self]
    rw [(dropDuplicates_rows df indVars obsCol).2, Nat.add_left_cancel_iff, hsum.2, and_comm]
    refine and_congr_left fun _ => ?_
    constructor
    · intro h v ids hv
      have := (filter_mem_length (npUnique_nodup _)).2.1 (h (v, ids) hv)
      exact ⟨this.1, fun a ha => mem_colList.1 (mem_npUnique.1 (this.2 a ha))⟩
    · rintro h ⟨v, ids⟩ hv
      exact (filter_mem_length (npUnique_nodup _)).2.2
        ⟨(h v ids hv).1, fun a ha => mem_npUnique.2 (mem_colList.2 ((h v ids hv).2 a ha))⟩

/-- When the columns are found to be unused. -/
theorem columnsWarning_unused (df : Frame V) (n m k : ℕ) :
    ConvWarning.unusedColumns n m ∈ columnsWarning k df ↔
      n = k ∧ m = df.columns.toFinset.card ∧ n < m := by
  rw [List.card_toFinset]
  unfold columnsWarning
  simp only
  split_ifs with h1 h2
  · simp only [List.not_mem_nil, false_iff, not_and]
    omega
  · simp only [List.mem_singleton, ConvWarning.unusedColumns.injEq]
    constructor
    · rintro ⟨rfl, rfl⟩; exact ⟨rfl, rfl, h2⟩
    · rintro ⟨rfl, rfl, -⟩; exact ⟨rfl, rfl⟩
  · simp only [List.mem_singleton, reduceCtorEq, false_iff, not_and]
    omega

/-- **C128** (long to wide, when the first warning is emitted). Whether or not the call succeeds, the
warning about unused columns is emitted exactly when the names given, counted with repetitions, are
fewer than the columns of the data, and it reports the two numbers. -/
theorem long_to_wide_unused_iff [Ring V] (fmt : V → String) (df : Frame V)
    (indVars altSpecificVars : List String) (subset : List (String × List V))
    (obsCol altCol choiceCol : String) (altNames : Option (List (V × String))) (null : V)
    (n m : ℕ) :
    .unusedColumns n m ∈ (longToWideCall fmt df indVars altSpecificVars subset obsCol altCol choiceCol
      altNames null).2 ↔
    n = indVars.length + altSpecificVars.length + subset.length + 3 ∧
      m = df.columns.toFinset.card ∧ n < m := by
  unfold longToWideCall
  simp only
  cases convertLongToWide fmt df indVars altSpecificVars subset obsCol altCol choiceCol altNames
      null with
  | error e => exact columnsWarning_unused ..
  | ok t =>
    simp only [List.mem_append]
    rw [columnsWarning_unused]
    constructor
    · rintro (h | h)
      · exact h
      · split_ifs at h <;> simp at h
    · exact fun h => Or.inl h

/-! ## Wide to long -/

/-- **C128** (wide to long, when the first warning is emitted). Whether or not the call succeeds, the
warning about unused columns is emitted exactly when the different names given are fewer than the
columns of the data, and it reports the two numbers. -/
theorem wide_to_long_unused_iff [Ring V] (isNull : V → Bool) (w : Frame V) (indVars : List String)
    (altSpecific : List (String × List (V × String))) (avail : List (V × String))
    (obsCol choiceCol : String) (n m : ℕ) :
    .unusedColumns n m ∈ (wideToLongCall isNull w indVars altSpecific avail obsCol choiceCol).2 ↔
    n = (indVars ++ avail.map Prod.snd ++ [obsCol, choiceCol] ++
      altSpecific.flatMap fun nc => nc.2.map Prod.snd).toFinset.card ∧
      m = w.columns.toFinset.card ∧ n < m := by
  rw [List.card_toFinset]
  unfold wideToLongCall
  simp only
  cases convertWideToLong isNull w indVars altSpecific avail obsCol choiceCol with
  | error e => exact columnsWarning_unused ..
  | ok t =>
    simp only [List.mem_append]
    rw [columnsWarning_unused]
    constructor
    · rintro (h | h)
      · simpa only [List.mem_append] using h
      · split_ifs at h <;> simp at h
    · exact fun h => Or.inl (by simpa only [List.mem_append] using h)

theorem filterMap_zip_length {α β γ : Type} (p : α → Bool) (g : α × β → γ) :
    ∀ (l : List α) (m : List β), l.length = m.length →
      ((l.zip m).filterMap fun ca => if p ca.1 = true then some (g ca) else none).length =
        l.countP p
  | [], _, _ => rfl
  | a :: l, [], h => by simp at h
  | a :: l, b :: m, h => by
    have ih := filterMap_zip_length p g l m (by simpa using h)
    rw [List.zip_cons_cons, List.filterMap_cons, List.countP_cons]
    by_cases ha : p a = true
    · simp [ha, ih]
    · simp [ha, ih]

/-- The number of rows of the long table: the non-zero availability cells. -/
theorem wideGridRows_length [Semiring V] (w : Frame V) (indVars : List String)
    (altSpecific : List (String × List (V × String))) (avail : List (V × String))
    (obsCol choiceCol : String)
    (hlen : avail.length = (npSort (npUnique (w.colList choiceCol))).length) :
    (wideGridRows w indVars altSpecific avail obsCol choiceCol).length =
      ((List.finRange w.numRows).map fun i =>
        (avail.map Prod.snd).countP fun c => decide (w.val c i ≠ 0)).sum := by
  unfold wideGridRows
  simp only
  rw [List.length_flatMap]
  congr 1
  refine List.map_congr_left fun i _ => ?_
  have := filterMap_zip_length (fun c => decide (w.val c i ≠ 0))
    (fun ca : String × V => ({ obs := w.val ca.1 i * w.val obsCol i
                               alt := w.val ca.1 i * ca.2
                               choice := if w.val choiceCol i = ca.2 then 1 else 0
                               ind := indVars.map fun v => w.val ca.1 i * w.val v i
                               spec := altSpecific.map fun nc =>
                                 match nc.2.lookup ca.2 with
                                 | some c => w.val c i
                                 | none => 0 } : LongRow V))
    (avail.map Prod.snd) (npSort (npUnique (w.colList choiceCol))) (by simpa using hlen)
  simp only [decide_eq_true_eq] at this
  exact this

theorem sum_countP_swap [Semiring V] (w : Frame V) (cols : List String) :
    ((((List.finRange w.numRows).map fun i =>
        cols.countP fun c => decide (w.val c i ≠ 0)).sum : ℕ) : V) =
      (cols.map fun c => ∑ i, if w.val c i ≠ 0 then (1 : V) else 0).sum := by
  induction cols with
  | nil => simp
  | cons c cols ih =>
    rw [List.map_cons, List.sum_cons, ← ih]
    have : ((List.finRange w.numRows).map fun i =>
        (c :: cols).countP fun c => decide (w.val c i ≠ 0)).sum =
        ((List.finRange w.numRows).map fun i => if w.val c i ≠ 0 then 1 else 0).sum +
        ((List.finRange w.numRows).map fun i =>
          cols.countP fun c => decide (w.val c i ≠ 0)).sum := by
      rw [← List.sum_map_add]
      congr 1
      refine List.map_congr_left fun i _ => ?_
      rw [List.countP_cons, Nat.add_comm]
      simp
    rw [this, Nat.cast_add]
    congr 1
    rw [← List.ofFn_eq_map, List.sum_ofFn, Nat.cast_sum]
    refine Finset.sum_congr rfl fun i _ => ?_
    split_ifs <;> simp

theorem lookup_nodup' {d : List (V × String)} (h : (d.map Prod.fst).Nodup) {k : V} {v : String}
    (hm : (k, v) ∈ d) : d.lookup k = some v := by
  induction d with
  | nil => simp at hm
  | cons x d ih =>
    obtain ⟨a, b⟩ := x
    rw [List.map_cons, List.nodup_cons] at h
    rw [List.lookup_cons]
    rcases List.mem_cons.1 hm with e | hm'
    · obtain ⟨rfl, rfl⟩ := Prod.mk.inj e
      simp
    · have : k ≠ a := by
        rintro rfl
        exact h.1 (List.mem_map.2 ⟨_, hm', rfl⟩)
      rw [beq_eq_false_iff_ne.2 this]
      exact ih h.2 hm'

theorem list_sum_le_eq_iff [Ring V] [IsStrictOrderedRing V] {α : Type} {l : List α} {f g : α → V}
    (h : ∀ x ∈ l, f x ≤ g x) :
    (l.map f).sum ≤ (l.map g).sum ∧
    ((l.map f).sum = (l.map g).sum ↔ ∀ x ∈ l, f x = g x) := by
  induction l with
  | nil => simp
  | cons x l ih =>
    have hx := h x (by simp)
    have ih := ih fun y hy => h y (by simp [hy])
    simp only [List.map_cons, List.sum_cons, List.mem_cons, forall_eq_or_imp, ← ih.2]
    refine ⟨add_le_add hx ih.1, fun e => ?_, fun e => by rw [e.1, e.2]⟩
    have h1 : f x = g x := by
      refine le_antisymm hx (not_lt.1 fun hlt => ?_)
      exact absurd e (ne_of_lt (add_lt_add_of_lt_of_le hlt ih.1))
    refine ⟨h1, ?_⟩
    rw [h1] at e
    exact add_left_cancel e

/-- **C128** (wide to long, what is true). When no availability cell is negative or between 0 and 1,
a successful conversion is silent exactly when every column of the data has been used and every
availability cell is 0 or 1. -/
theorem wide_to_long_silent_iff_partial [Ring V] [IsStrictOrderedRing V] {isNull : V → Bool}
    {w : Frame V} {indVars : List String} {altSpecific : List (String × List (V × String))}
    {avail : List (V × String)} {obsCol choiceCol : String} {rows : List (LongRow V)}
    (h : (wideToLongCall isNull w indVars altSpecific avail obsCol choiceCol).1 = .ok rows)
    (hk : (avail.map Prod.fst).Nodup)
    (h01 : ∀ ac ∈ avail, ∀ i, w.val ac.2 i = 0 ∨ 1 ≤ w.val ac.2 i) :
    (wideToLongCall isNull w indVars altSpecific avail obsCol choiceCol).2 = [] ↔
    (∀ c ∈ w.columns, c ∈ indVars ∨ (∃ a, (a, c) ∈ avail) ∨ c = obsCol ∨ c = choiceCol ∨
      ∃ v d a, (v, d) ∈ altSpecific ∧ (a, c) ∈ d) ∧
    ∀ a c, (a, c) ∈ avail → ∀ i, w.val c i = 0 ∨ w.val c i = 1 := by
  unfold wideToLongCall at h ⊢
  simp only at h ⊢
  cases hc : convertWideToLong isNull w indVars altSpecific avail obsCol choiceCol with
  | error e => rw [hc] at h; simp at h
  | ok rows' =>
    have hcols : (∀ c ∈ indVars, c ∈ w.columns) ∧ (∀ c ∈ avail.map Prod.snd, c ∈ w.columns) ∧
        (∀ c ∈ altSpecific.flatMap (fun nc => nc.2.map Prod.snd), c ∈ w.columns) ∧
        ∀ c ∈ [choiceCol, obsCol], c ∈ w.columns := by
      have hc' := hc
      unfold convertWideToLong at hc'
      iterate 9 rw [bind_ok_iff] at hc'
      obtain ⟨g1, g2, g3, g4, -⟩ := hc'
      exact ⟨ensureColumns_ok.1 g1, ensureColumns_ok.1 g2, ensureColumns_ok.1 g3,
        ensureColumns_ok.1 g4⟩
    obtain ⟨-, hm, -, rfl⟩ := convertWideToLong_ok hc
    have hperm : (avail.map Prod.fst).Perm (npSort (npUnique (w.colList choiceCol))) := by
      rw [npSort_npUnique]
      refine (List.perm_ext_iff_of_nodup hk (npUnique_nodup _)).2 fun a => ?_
      rw [hm, mem_npUnique, mem_colList]
    have hlen : avail.length = (npSort (npUnique (w.colList choiceCol))).length := by
      simpa using hperm.length_eq
    have hann : announcedLongRows w avail choiceCol =
        ((avail.map Prod.snd).map fun c => ∑ i, w.val c i).sum := by
      unfold announcedLongRows
      rw [← (hperm.map _).sum_eq, List.map_map, List.map_map]
      congr 1
      refine List.map_congr_left fun ac hac => ?_
      simp only [Function.comp_apply]
      rw [lookup_nodup' hk (v := ac.2) hac, Option.getD_some, Frame.colList, List.sum_ofFn]
    simp only [List.append_eq_nil_iff]
    have hcells : ∀ c ∈ avail.map Prod.snd, ∀ i, (if w.val c i ≠ 0 then (1 : V) else 0) ≤ w.val c i := by
      intro c hc i
      obtain ⟨ac, hac, rfl⟩ := List.mem_map.1 hc
      rcases h01 ac hac i with h0 | h1
      · simp [h0]
      · rw [if_pos (ne_of_gt (lt_of_lt_of_le one_pos h1))]
        exact h1
    refine and_congr ?_ ?_
    · rw [columnsWarning_nil_iff (List.nodup_dedup _)]
      · simp only [List.mem_dedup, List.mem_append, List.mem_map, List.mem_flatMap, List.mem_cons,
          List.not_mem_nil, or_false]
        refine forall₂_congr fun c _ => ?_
        constructor
        · rintro (((h | ⟨⟨a, c'⟩, h, rfl⟩) | h) | ⟨⟨v, d⟩, h, ⟨a, c'⟩, h', rfl⟩)
          · exact Or.inl h
          · exact Or.inr (Or.inl ⟨a, h⟩)
          · exact Or.inr (Or.inr (h.imp_right Or.inl))
          · exact Or.inr (Or.inr (Or.inr (Or.inr ⟨v, d, a, h, h'⟩)))
        · rintro (h | ⟨a, h⟩ | h | h | ⟨v, d, a, h, h'⟩)
          · exact Or.inl (Or.inl (Or.inl h))
          · exact Or.inl (Or.inl (Or.inr ⟨(a, c), h, rfl⟩))
          · exact Or.inl (Or.inr (Or.inl h))
          · exact Or.inl (Or.inr (Or.inr h))
          · exact Or.inr ⟨(v, d), h, (a, c), h', rfl⟩
      · intro c hc
        rw [List.mem_dedup, List.mem_append, List.mem_append, List.mem_append] at hc
        obtain ⟨g1, g2, g3, g4⟩ := hcols
        rcases hc with ((hc | hc) | hc) | hc
        · exact g1 c hc
        · exact g2 c hc
        · exact g4 c (by simp only [List.mem_cons, List.not_mem_nil, or_false] at hc ⊢; tauto)
        · exact g3 c hc
    · simp only [ite_eq_left_iff, imp_false, not_not, List.cons_ne_self]
      rw [wideGridRows_length _ _ _ _ _ _ hlen, sum_countP_swap, hann]
      rw [(list_sum_le_eq_iff fun c hc => Finset.sum_le_sum fun i _ => hcells c hc i).2]
      constructor
      · intro h a c hac i
        have hc : c ∈ avail.map Prod.snd := List.mem_map.2 ⟨_, hac, rfl⟩
        have := (Finset.sum_eq_sum_iff_of_le fun i _ => hcells c hc i).1 (h c hc) i (by simp)
        by_cases h0 : w.val c i = 0
        · exact Or.inl h0
        · rw [if_pos h0] at this
          exact Or.inr this.symm
      · intro h c hc
        obtain ⟨⟨a, c⟩, hac, rfl⟩ := List.mem_map.1 hc
        refine Finset.sum_congr rfl fun i _ => ?_
        rcases h a c hac i with h0 | h1
        · simp [h0]
        · simp [h1]

/-! ## Concrete cases and disagreements -/

/-- **C128** hypotheses on a concrete table, all columns used: silent. -/
theorem exLong_silent :
    longToWideCall exFmt exLong ["inc"] ["x"] [] "id" "alt" "choice" none (-1) =
      (convertLongToWide exFmt exLong ["inc"] ["x"] [] "id" "alt" "choice" none (-1), []) ∧
    (["inc"] ++ ["x"] ++ ([] : List (String × List ℤ)).map Prod.fst ++
      ["id", "alt", "choice"]).Nodup := by
  decide

/-- **C128** on the same table, leaving out a column: one warning, with the numbers of columns. -/
theorem exLong_unused :
    longToWideCall exFmt exLong [] ["x"] [] "id" "alt" "choice" none (-1) =
      (convertLongToWide exFmt exLong [] ["x"] [] "id" "alt" "choice" none (-1),
        [.unusedColumns 4 5]) := by
  decide

/-- **C128** on the same table, with a subset naming an alternative that no row has: the shape differs. -/
theorem exLong_subset :
    longToWideCall exFmt exLong ["inc"] [] [("x", [1, 9])] "id" "alt" "choice" none (-1) =
      (convertLongToWide exFmt exLong ["inc"] [] [("x", [1, 9])] "id" "alt" "choice" none (-1),
        [.shape]) := by
  decide

/-- One observation with choices 1, 1 and -1 (their sum is the number of observations), whose income
varies. -/
def exVarying : Frame ℤ where
  columns := ["id", "alt", "choice", "x", "inc"]
  numRows := 3
  val := fun c => if c = "id" then ![7, 7, 7] else if c = "alt" then ![1, 2, 3]
    else if c = "choice" then ![1, 1, -1] else if c = "x" then ![4, 5, 6] else ![10, 10, 20]

/-- **C128** with an individual variable that varies within an observation: two rows instead of one,
and a warning. -/
theorem exVarying_shape :
    longToWideCall exFmt exVarying ["inc"] ["x"] [] "id" "alt" "choice" none (-1) =
      (.ok { obsIds := [7, 7], choice := [1, 2],
             avail := [("availability_1", [1]), ("availability_2", [1]), ("availability_2", [1])],
             ind := [("inc", [10, 20])],
             spec := [("x_1", [4]), ("x_2", [5]), ("x_2", [6])] }, [.shape]) := by
  decide

/-- **C128** (negation, long to wide). The names are counted with repetitions: giving one variable
two roles makes up for a column left out, and `x` is lost without a warning. -/
theorem long_to_wide_silent_loss :
    longToWideCall exFmt exLong ["inc"] ["inc"] [] "id" "alt" "choice" none (-1) =
      (.ok { obsIds := [7, 3, 5], choice := [2, 1, 2],
             avail := [("availability_1", [1, 1, 0]), ("availability_2", [1, 1, 1])],
             ind := [("inc", [10, 20, 30])],
             spec := [("inc_1", [10, 20, -1]), ("inc_2", [10, 20, 30])] }, []) ∧
    "x" ∈ exLong.columns ∧ "x" ∉ ["inc"] ++ ["inc"] ++ ["id", "alt", "choice"] := by
  decide

/-- **C128** hypotheses on a concrete wide table: silent. -/
theorem exWide_silent :
    wideToLongCall (fun _ => false) exWide [] [] [(1, "av1"), (2, "av2")] "id" "choice" =
      (.ok [⟨10, 1, 1, [], []⟩, ⟨20, 1, 0, [], []⟩, ⟨20, 2, 1, [], []⟩], []) ∧
    ([((1 : ℤ), "av1"), (2, "av2")].map Prod.fst).Nodup ∧
    ∀ ac ∈ [((1 : ℤ), "av1"), (2, "av2")], ∀ i : Fin 2,
      exWide.val ac.2 i = 0 ∨ 1 ≤ exWide.val ac.2 i := by
  refine ⟨by decide, by decide, ?_⟩
  intro ac hac i
  simp only [List.mem_cons, List.not_mem_nil, or_false] at hac
  rcases hac with rfl | rfl <;> fin_cases i <;> simp [exWide]

/-- **C128** on a call that fails: the availability column of alternative 2 has been left out, and
the warning comes before the error. -/
theorem exWide_fails_with_warning :
    (wideToLongCall (fun _ => false) exWide [] [] [(1, "av1")] "id" "choice").2 =
      [.unusedColumns 3 4] ∧
    ∀ rows, (wideToLongCall (fun _ => false) exWide [] [] [(1, "av1")] "id" "choice").1 ≠
      .ok rows := by
  refine ⟨by decide, ?_⟩
  have : ∃ e, (wideToLongCall (fun _ => false) exWide [] [] [(1, "av1")] "id" "choice").1 =
      .error e := ⟨_, rfl⟩
  obtain ⟨e, he⟩ := this
  rw [he]
  simp

/-- **C128** on a wide table with availabilities 2: the result is returned with a warning. -/
theorem exWide2_warns :
    wideToLongCall (fun _ => false) exWide2 [] [] [(1, "av1"), (2, "av2")] "id" "choice" =
      (.ok [⟨20, 2, 1, [], []⟩, ⟨20, 4, 0, [], []⟩, ⟨40, 2, 0, [], []⟩, ⟨40, 4, 1, [], []⟩],
        [.shape]) := by
  decide

/-- A wide table whose availability cells are 3 and -1. -/
def exWide3 : Frame ℤ where
  columns := ["id", "choice", "av1", "av2"]
  numRows := 2
  val := fun c => if c = "id" then ![10, 20] else if c = "choice" then ![1, 2]
    else if c = "av1" then ![3, 3] else ![-1, -1]

/-- **C128** (negation, wide to long). Availabilities that are not 0 or 1 but add up to the number of
non-zero ones give wrong ids without a warning: observation 10 becomes 30 and -10. -/
theorem wide_to_long_silent_wrong :
    wideToLongCall (fun _ => false) exWide3 [] [] [(1, "av1"), (2, "av2")] "id" "choice" =
      (.ok [⟨30, 3, 1, [], []⟩, ⟨-10, -2, 0, [], []⟩, ⟨60, 3, 0, [], []⟩, ⟨-20, -2, 1, [], []⟩],
        []) := by
  decide

/-- **C128** (negation, key order). The conversion that pairs availabilities with the wrong
alternatives (see `wide_to_long_key_order`) is silent too. -/
theorem wide_to_long_key_order_silent :
    wideToLongCall (fun _ => false) exWide [] [] [(2, "av2"), (1, "av1")] "id" "choice" =
      (.ok [⟨10, 2, 0, [], []⟩, ⟨20, 1, 0, [], []⟩, ⟨20, 2, 1, [], []⟩], []) := by decide

end Pylogit
