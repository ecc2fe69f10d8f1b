import Verif.Props.LongToWide

/-!
# C15: long to wide and back
-/

set_option linter.unusedSectionVars false

namespace Pylogit

variable {V : Type} [LinearOrder V]

namespace Spec

/-- The rows of a long table, as records. -/
def rowsOfFrame (df : Frame V) (obsCol altCol choiceCol : String) (indVars specVars : List String) :
    List (LongRow V) :=
  List.ofFn fun r =>
    { obs := df.val obsCol r
      alt := df.val altCol r
      choice := df.val choiceCol r
      ind := indVars.map fun v => df.val v r
      spec := specVars.map fun v => df.val v r }

/-- The alternatives over which a variable varies. -/
def relevantAlts (subset : List (String × List V)) (alts : List V) (v : String) : List V :=
  alts.filter fun a => match subset.lookup v with
    | none => true
    | some rel => decide (a ∈ rel)

end Spec

open Spec

theorem lookup_map_pair {β : Type} (l : List V) (g : V → β) (a : V) :
    (l.map fun a => (a, g a)).lookup a = if a ∈ l then some (g a) else none := by
  induction l with
  | nil => simp
  | cons b l ih =>
    by_cases e : a = b
    · subst e; simp
    · have e' : (a == b) = false := by simpa using e
      rw [List.map_cons, List.lookup_cons, e', ih]
      simp [e]

theorem toFrame_val [Zero V] {t : WideTable V} {obsCol choiceCol : String}
    (hn : ((t.columns obsCol choiceCol).map Prod.fst).Nodup) {c : String} {l : List V}
    (h : (c, l) ∈ t.columns obsCol choiceCol) (i : Fin t.obsIds.length) :
    (t.toFrame obsCol choiceCol).val c i = l.getD i.val 0 := by
  simp only [WideTable.toFrame]
  rw [show (t.columns obsCol choiceCol).lookup c = some l from lookup_of_mem_nodup hn h]
  rfl

/-- In a table grouped by observation and ordered by alternative, listing the rows by observation
(first appearance) and alternative (ascending) lists them in order. -/
theorem rows_in_order {df : Frame V} {obsCol altCol : String} {alts : List V}
    (ha : AltsOf df altCol alts)
    (hd : ∀ r s, df.val obsCol r = df.val obsCol s → df.val altCol r = df.val altCol s → r = s)
    (hcon : Contiguous (df.colList obsCol))
    (hsort : ∀ r s, r < s → df.val obsCol r = df.val obsCol s → df.val altCol r < df.val altCol s) :
    ((firstAppearance (df.colList obsCol)).flatMap fun x =>
      alts.filterMap fun a => rowAt df obsCol altCol x a) = List.finRange df.numRows := by
  have hlen : (df.colList obsCol).length = df.numRows := by simp [Frame.colList]
  -- rows of an earlier observation come before rows of a later one
  have hbefore : ∀ r s, (df.colList obsCol).idxOf (df.val obsCol r) <
      (df.colList obsCol).idxOf (df.val obsCol s) → r < s := by
    intro r s hrs
    classical
    -- take any choice of rows that selects `r` and `s`
    let chosen : V → Fin df.numRows := fun x =>
      if x = df.val obsCol r then r else if x = df.val obsCol s then s
      else if h : ∃ q, df.val obsCol q = x then h.choose else r
    have hmem : ∀ q, df.val obsCol (chosen (df.val obsCol q)) = df.val obsCol q := by
      intro q
      simp only [chosen]
      split_ifs with h1 h2 h3
      · exact h1.symm
      · exact h2.symm
      · exact h3.choose_spec
      · exact absurd ⟨q, rfl⟩ h3
    have := chosen_ordered_of_contiguous hmem hcon
    have hne : df.val obsCol s ≠ df.val obsCol r := by intro e; rw [e] at hrs; omega
    have hr : chosen (df.val obsCol r) = r := by simp [chosen]
    have hs : chosen (df.val obsCol s) = s := by simp [chosen, hne]
    rw [← hr, ← hs]
    have h1 := (this.and (originalOrder_pairwise (df.colList obsCol)))
    obtain ⟨i, hi⟩ := List.mem_iff_getElem.1 (mem_originalOrder.2 (mem_colList.2 ⟨r, rfl⟩) :
      df.val obsCol r ∈ originalOrderUniqueIds (df.colList obsCol))
    obtain ⟨j, hj⟩ := List.mem_iff_getElem.1 (mem_originalOrder.2 (mem_colList.2 ⟨s, rfl⟩) :
      df.val obsCol s ∈ originalOrderUniqueIds (df.colList obsCol))
    obtain ⟨hi, ei⟩ := hi
    obtain ⟨hj, ej⟩ := hj
    rw [List.pairwise_iff_getElem] at h1
    rcases lt_trichotomy i j with h | h | h
    · have := (h1 i j hi hj h).1
      rwa [ei, ej] at this
    · subst h; exact absurd (ej.symm.trans ei) hne
    · have := (h1 j i hj hi h).2
      rw [ei, ej] at this
      omega
  refine List.Perm.eq_of_pairwise (le := (· < ·))
    (fun a b _ _ hab hba => absurd hab (lt_asymm hba)) ?_ (List.pairwise_lt_finRange _) ?_
  · rw [List.pairwise_flatMap]
    constructor
    · intro x _
      rw [List.pairwise_filterMap]
      refine ha.ascending.imp ?_
      intro a b hab r hr s hs
      rw [rowAt_eq_some hd] at hr hs
      rcases lt_trichotomy r s with h | h | h
      · exact h
      · subst h; rw [← hr.2, ← hs.2] at hab; exact absurd hab (lt_irrefl _)
      · have := hsort s r h (by rw [hr.1, hs.1])
        rw [hr.2, hs.2] at this
        exact absurd hab (lt_asymm this)
    · refine (firstAppearance_pairwise (df.colList obsCol)).imp ?_
      intro x y hxy r hr s hs
      obtain ⟨a, -, hr⟩ := List.mem_filterMap.1 hr
      obtain ⟨b, -, hs⟩ := List.mem_filterMap.1 hs
      rw [rowAt_eq_some hd] at hr hs
      obtain ⟨rfl, -⟩ := hr
      obtain ⟨rfl, -⟩ := hs
      exact hbefore r s hxy
  · rw [List.perm_ext_iff_of_nodup]
    · intro r
      simp only [List.mem_finRange, iff_true, List.mem_flatMap, List.mem_filterMap]
      exact ⟨df.val obsCol r, mem_firstAppearance.2 (mem_colList.2 ⟨r, rfl⟩), df.val altCol r,
        (ha.mem _).2 ⟨r, rfl⟩, (rowAt_eq_some hd).2 ⟨rfl, rfl⟩⟩
    · rw [List.nodup_flatMap]
      constructor
      · intro x _
        rw [List.Nodup, List.pairwise_filterMap]
        refine ha.ascending.imp ?_
        intro a b hab r hr s hs e
        subst e
        rw [rowAt_eq_some hd] at hr hs
        rw [← hr.2, ← hs.2] at hab
        exact lt_irrefl _ hab
      · refine (firstAppearance_pairwise (df.colList obsCol)).imp ?_
        intro x y hxy
        rw [Function.onFun, List.disjoint_left]
        intro r hr hs
        obtain ⟨a, -, hr⟩ := List.mem_filterMap.1 hr
        obtain ⟨b, -, hs⟩ := List.mem_filterMap.1 hs
        rw [rowAt_eq_some hd] at hr hs
        rw [← hr.1, ← hs.1] at hxy
        exact lt_irrefl _ hxy
    · exact List.nodup_finRange _

/-- Sufficient conditions for `convert_wide_to_long` to accept. -/
theorem convertWideToLong_accepts [Semiring V] {isNull : V → Bool} {w : Frame V}
    {indVars : List String} {altSpecific : List (String × List (V × String))}
    {avail : List (V × String)} {obsCol choiceCol : String}
    (h1 : ∀ c ∈ indVars, c ∈ w.columns) (h2 : ∀ ac ∈ avail, ac.2 ∈ w.columns)
    (h3 : ∀ nc ∈ altSpecific, ∀ ac ∈ nc.2, ac.2 ∈ w.columns)
    (h4 : choiceCol ∈ w.columns ∧ obsCol ∈ w.columns)
    (h5 : Function.Injective (w.val obsCol)) (h6 : ∀ i, isNull (w.val choiceCol i) = false)
    (h7 : ∀ ac ∈ avail, ∃ i, w.val choiceCol i = ac.1)
    (h8 : ∀ nc ∈ altSpecific, ∀ ac ∈ nc.2, ∃ i, w.val choiceCol i = ac.1)
    (h9 : ∀ i, ∃ c, avail.lookup (w.val choiceCol i) = some c ∧ w.val c i = 1) :
    convertWideToLong isNull w indVars altSpecific avail obsCol choiceCol =
      .ok (wideGridRows w indVars altSpecific avail obsCol choiceCol) := by
  unfold convertWideToLong
  iterate 9 rw [bind_ok_iff]
  refine ⟨ensureColumns_ok.2 h1, ensureColumns_ok.2 ?_, ensureColumns_ok.2 ?_,
    ensureColumns_ok.2 ?_, ensureUniqueObsIds_ok.2 h5, ?_, ?_, ?_, ?_, rfl⟩
  · intro c hc
    obtain ⟨ac, hac, rfl⟩ := List.mem_map.1 hc
    exact h2 ac hac
  · intro c hc
    obtain ⟨nc, hnc, hc⟩ := List.mem_flatMap.1 hc
    obtain ⟨ac, hac, rfl⟩ := List.mem_map.1 hc
    exact h3 nc hnc ac hac
  · intro c hc
    simp only [List.mem_cons, List.not_mem_nil, or_false] at hc
    rcases hc with rfl | rfl
    · exact h4.1
    · exact h4.2
  · unfold checkBlankChoices
    rw [ite_error]
    simp only [List.any_eq_true, not_exists, not_and]
    intro x hx
    obtain ⟨i, rfl⟩ := mem_colList.1 hx
    simp [h6 i]
  · unfold ensureAllAltIdsChosen
    have hs : ∀ x, x ∈ npSort (npUnique (w.colList choiceCol)) ↔ ∃ i, w.val choiceCol i = x := by
      intro x; rw [npSort_npUnique, mem_npUnique, mem_colList]
    simp only
    rw [if_neg, if_neg]
    · rw [not_not, List.filter_eq_nil_iff]
      intro x hx
      obtain ⟨nc, hnc, hx⟩ := List.mem_flatMap.1 hx
      obtain ⟨ac, hac, rfl⟩ := List.mem_map.1 hx
      simpa [hs] using h8 nc hnc ac hac
    · rw [not_not, List.filter_eq_nil_iff]
      intro x hx
      obtain ⟨ac, hac, rfl⟩ := List.mem_map.1 hx
      simpa [hs] using h7 ac hac
  · unfold ensureChosenInAltIds
    rw [ite_ok]
    simp only [List.all_eq_true, decide_eq_true_eq]
    intro x hx
    obtain ⟨i, rfl⟩ := mem_colList.1 hx
    obtain ⟨c, hc, -⟩ := h9 i
    have : ∀ (l : List (V × String)) {a c}, l.lookup a = some c → a ∈ l.map Prod.fst := by
      intro l a c h
      induction l with
      | nil => simp at h
      | cons b l ih =>
        obtain ⟨b1, b2⟩ := b
        by_cases e : a = b1
        · subst e; simp
        · have e' : (a == b1) = false := by simpa using e
          rw [List.lookup_cons, e'] at h
          exact List.mem_cons_of_mem _ (ih h)
    exact this _ hc
  · unfold ensureChoseAvailable
    rw [ite_error]
    simp only [List.any_eq_true, not_exists, not_and, Bool.and_eq_true]
    intro i _ _
    obtain ⟨c, hc, h1⟩ := h9 i
    simp [hc, h1]

/-- **C15**. Take a long table whose rows are grouped by observation and ordered by alternative
within each observation, with one choice per observation, every alternative chosen by someone,
individual variables constant within observations, subset variables zero outside their subset, and
distinct column labels in the wide table.  If it converts to wide format, then converting the
result back (with the availability and variable dictionaries that name the created columns) succeeds
and returns exactly the original rows in the original order. -/
theorem long_wide_long [Ring V] [Nontrivial V] {fmt : V → String} {df : Frame V}
    {indVars altSpecificVars : List String} {subset : List (String × List V)}
    {obsCol altCol choiceCol : String} {altNames : Option (List (V × String))} {null : V}
    {t : WideTable V} {chosen : V → Fin df.numRows} {isNull : V → Bool} {alts : List V}
    {lab : V → String} (ha : AltsOf df altCol alts)
    (hlab : ∀ a ∈ alts, LabelOf fmt altNames a (lab a))
    (hc : OneChoicePerObs df obsCol choiceCol chosen)
    (hcon : Contiguous (df.colList obsCol))
    (hsort : ∀ r s, r < s → df.val obsCol r = df.val obsCol s → df.val altCol r < df.val altCol s)
    (hall : ∀ r, ∃ s, df.val choiceCol s = 1 ∧ df.val altCol s = df.val altCol r)
    (hind : ∀ v ∈ indVars, ConstantInObs df obsCol v)
    (hsub : ∀ v rel, subset.lookup v = some rel → ∀ r, df.val altCol r ∉ rel → df.val v r = 0)
    (hnull : ∀ r, isNull (df.val altCol r) = false)
    (h : convertLongToWide fmt df indVars altSpecificVars subset obsCol altCol choiceCol altNames
      null = .ok t)
    (hdistinct : ((t.columns obsCol choiceCol).map Prod.fst).Nodup) :
    convertWideToLong isNull (t.toFrame obsCol choiceCol) indVars
      ((altSpecificVars ++ subset.map Prod.fst).map fun v =>
        (v, (relevantAlts subset alts v).map fun a => (a, v ++ "_" ++ lab a)))
      (alts.map fun a => (a, "availability_" ++ lab a)) obsCol choiceCol =
    .ok (rowsOfFrame df obsCol altCol choiceCol indVars
      (altSpecificVars ++ subset.map Prod.fst)) := by
  classical
  have hd := checkDuplicateRecords_ok.1 (convertLongToWide_ok_iff.1 h).2.2.2.2.1
  obtain ⟨alts', ha', lab', hlab', e1, e2, e3, e4, e5⟩ := long_to_wide_partial hc
    (chosen_ordered_of_contiguous hc.mem hcon) hind h
  obtain rfl : alts' = alts := (altsOf_eq ha').symm.trans (altsOf_eq ha)
  have hll : ∀ a ∈ alts', lab' a = lab a := by
    intro a haa
    have := altLabel_ok.2 (hlab a haa)
    rw [altLabel_ok.2 (hlab' a haa)] at this
    exact Except.ok.inj this
  rw [show alts'.map (fun a => ("availability_" ++ lab' a,
      (firstAppearance (df.colList obsCol)).map fun x => wideAvail df obsCol altCol x a)) =
      alts'.map (fun a => ("availability_" ++ lab a,
      (firstAppearance (df.colList obsCol)).map fun x => wideAvail df obsCol altCol x a)) from
    List.map_congr_left fun a haa => by rw [hll a haa]] at e3
  have e5' : t.spec = (altSpecificVars ++ subset.map Prod.fst).flatMap fun v =>
      (relevantAlts subset alts' v).map fun a =>
        (v ++ "_" ++ lab a, (firstAppearance (df.colList obsCol)).map fun x =>
          wideCell df obsCol altCol null v x a) := by
    rw [e5]
    refine List.flatMap_congr fun v _ => List.map_congr_left fun a haa => ?_
    rw [hll a (List.mem_filter.1 haa).1]
  clear e5 hlab' hll
  set obs := firstAppearance (df.colList obsCol) with hobs
  -- observation ids and their rows
  have hobsmem : ∀ x ∈ obs, ∃ r, df.val obsCol r = x := fun x hx =>
    mem_colList.1 (mem_firstAppearance.1 hx)
  have hchm : ∀ x ∈ obs, df.val obsCol (chosen x) = x := by
    intro x hx
    obtain ⟨r, rfl⟩ := hobsmem x hx
    exact hc.mem r
  have hobsnd : obs.Nodup := by
    rw [hobs, ← unique_ids_eq_firstAppearance]; exact originalOrder_nodup _
  -- reading cells of the wide frame
  have hlenobs : t.obsIds.length = obs.length := by rw [e1]
  have hread : ∀ (c : String) (g : V → V), (c, obs.map g) ∈ t.columns obsCol choiceCol →
      ∀ i : Fin t.obsIds.length,
        (t.toFrame obsCol choiceCol).val c i = g (obs[i.val]'(by rw [← hlenobs]; exact i.2)) := by
    intro c g hg i
    rw [toFrame_val hdistinct hg]
    have hi : i.val < obs.length := by rw [← hlenobs]; exact i.2
    simp [hi]
  have hcolmem : ∀ (c : String) (l : List V), (c, l) ∈ t.columns obsCol choiceCol →
      c ∈ (t.toFrame obsCol choiceCol).columns := fun c l hl => List.mem_map.2 ⟨_, hl, rfl⟩
  have mObs : (obsCol, obs.map id) ∈ t.columns obsCol choiceCol := by
    simp [WideTable.columns, e1]
  have mChoice : (choiceCol, obs.map fun x => df.val altCol (chosen x)) ∈
      t.columns obsCol choiceCol := by
    simp [WideTable.columns, e2]
  have mAvail : ∀ a ∈ alts', ("availability_" ++ lab a,
      obs.map fun x => wideAvail df obsCol altCol x a) ∈ t.columns obsCol choiceCol := by
    intro a haa
    have : ("availability_" ++ lab a, obs.map fun x => wideAvail df obsCol altCol x a) ∈ t.avail := by
      rw [e3]; exact List.mem_map.2 ⟨a, haa, rfl⟩
    simp only [WideTable.columns, List.mem_append]
    tauto
  have mInd : ∀ v ∈ indVars, (v, obs.map fun x => df.val v (chosen x)) ∈
      t.columns obsCol choiceCol := by
    intro v hv
    have : (v, obs.map fun x => df.val v (chosen x)) ∈ t.ind := by
      rw [e4]; exact List.mem_map.2 ⟨v, hv, rfl⟩
    simp only [WideTable.columns, List.mem_append]
    tauto
  have mSpec : ∀ v ∈ altSpecificVars ++ subset.map Prod.fst, ∀ a ∈ relevantAlts subset alts' v,
      (v ++ "_" ++ lab a, obs.map fun x => wideCell df obsCol altCol null v x a) ∈
        t.columns obsCol choiceCol := by
    intro v hv a haa
    have : (v ++ "_" ++ lab a, obs.map fun x => wideCell df obsCol altCol null v x a) ∈ t.spec := by
      rw [e5']
      exact List.mem_flatMap.2 ⟨v, hv, List.mem_map.2 ⟨a, haa, rfl⟩⟩
    simp only [WideTable.columns, List.mem_append]
    tauto
  have hxmem : ∀ i : Fin t.obsIds.length, obs[i.val]'(by rw [← hlenobs]; exact i.2) ∈ obs :=
    fun i => List.getElem_mem _
  have hchosenAll : ∀ a ∈ alts', ∃ i, (t.toFrame obsCol choiceCol).val choiceCol i = a := by
    intro a haa
    obtain ⟨r, rfl⟩ := (ha.mem a).1 haa
    obtain ⟨s, hs1, hs2⟩ := hall r
    rw [chosen_rows_eq hc] at hs1
    have hx : df.val obsCol s ∈ obs := mem_firstAppearance.2 (mem_colList.2 ⟨s, rfl⟩)
    obtain ⟨j, hj, ej⟩ := List.mem_iff_getElem.1 hx
    refine ⟨⟨j, by rw [← hlenobs] at hj; exact hj⟩, ?_⟩
    refine (hread _ _ mChoice ⟨j, by rw [← hlenobs] at hj; exact hj⟩).trans ?_
    simp only [ej]
    rw [← hs1, hs2]
  have hgetRow : ∀ x a r, rowAt df obsCol altCol x a = some r ↔
      df.val obsCol r = x ∧ df.val altCol r = a := fun x a r => rowAt_eq_some hd
  have hacc := convertWideToLong_accepts (isNull := isNull) (w := t.toFrame obsCol choiceCol)
    (indVars := indVars)
    (altSpecific := (altSpecificVars ++ subset.map Prod.fst).map fun v =>
        (v, (relevantAlts subset alts' v).map fun a => (a, v ++ "_" ++ lab a)))
    (avail := alts'.map fun a => (a, "availability_" ++ lab a)) (obsCol := obsCol)
    (choiceCol := choiceCol)
    (fun c hcI => hcolmem _ _ (mInd c hcI))
    (by
      intro ac hac
      obtain ⟨a, haa, rfl⟩ := List.mem_map.1 hac
      exact hcolmem _ _ (mAvail a haa))
    (by
      intro nc hnc ac hac
      obtain ⟨v, hv, rfl⟩ := List.mem_map.1 hnc
      obtain ⟨a, haa, rfl⟩ := List.mem_map.1 hac
      exact hcolmem _ _ (mSpec v hv a haa))
    ⟨hcolmem _ _ mChoice, hcolmem _ _ mObs⟩
    (by
      intro i j e
      rw [hread _ _ mObs i, hread _ _ mObs j] at e
      exact Fin.ext ((List.Nodup.getElem_inj_iff hobsnd).1 e))
    (by
      intro i
      rw [hread _ _ mChoice i]
      exact hnull _)
    (by
      intro ac hac
      obtain ⟨a, haa, rfl⟩ := List.mem_map.1 hac
      exact hchosenAll a haa)
    (by
      intro nc hnc ac hac
      obtain ⟨v, hv, rfl⟩ := List.mem_map.1 hnc
      obtain ⟨a, haa, rfl⟩ := List.mem_map.1 hac
      exact hchosenAll a (List.mem_filter.1 haa).1)
    (by
      intro i
      rw [hread _ _ mChoice i]
      have haa : df.val altCol (chosen (obs[i.val]'(by rw [← hlenobs]; exact i.2))) ∈ alts' :=
        (ha.mem _).2 ⟨_, rfl⟩
      refine ⟨_, by rw [lookup_map_pair, if_pos haa], ?_⟩
      rw [hread _ _ (mAvail _ haa) i, wideAvail]
      rw [(hgetRow _ _ _).2 ⟨hchm _ (hxmem i), rfl⟩]
      rfl)
  rw [hacc]
  have hrows := wide_to_long_rows_partial (by
      unfold SortedKeys
      rw [List.map_map]
      simpa [Function.comp_def] using ha.ascending) (by
      intro ac hac i
      obtain ⟨a, haa, rfl⟩ := List.mem_map.1 hac
      rw [hread _ _ (mAvail a haa) i, wideAvail]
      split_ifs <;> simp) hacc
  rw [hrows]
  congr 1
  -- the rows, observation by observation
  have hblock : ∀ i : Fin t.obsIds.length,
      (((alts'.map fun a => (a, "availability_" ++ lab a)).filter fun ac =>
        decide ((t.toFrame obsCol choiceCol).val ac.2 i = 1)).map fun ac =>
          longRow (t.toFrame obsCol choiceCol) indVars
            ((altSpecificVars ++ subset.map Prod.fst).map fun v =>
              (v, (relevantAlts subset alts' v).map fun a => (a, v ++ "_" ++ lab a)))
            obsCol choiceCol i ac.1) =
      (alts'.filterMap fun a =>
        rowAt df obsCol altCol (obs[i.val]'(by rw [← hlenobs]; exact i.2)) a).map fun r =>
          ({ obs := df.val obsCol r
             alt := df.val altCol r
             choice := df.val choiceCol r
             ind := indVars.map fun v => df.val v r
             spec := (altSpecificVars ++ subset.map Prod.fst).map fun v => df.val v r } :
            LongRow V) := by
    intro i
    have hx := hxmem i
    generalize hxi : obs[i.val]'(by rw [← hlenobs]; exact i.2) = x at hx
    have hread' : ∀ (c : String) (g : V → V), (c, obs.map g) ∈ t.columns obsCol choiceCol →
        (t.toFrame obsCol choiceCol).val c i = g x := fun c g hg => by rw [hread c g hg i, hxi]
    rw [List.filter_map, List.map_map]
    have key : ∀ l : List V, (∀ a ∈ l, a ∈ alts') →
        (l.filter ((fun ac : V × String =>
          decide ((t.toFrame obsCol choiceCol).val ac.2 i = 1)) ∘
            fun a => (a, "availability_" ++ lab a))).map
          ((fun ac : V × String => longRow (t.toFrame obsCol choiceCol) indVars
            ((altSpecificVars ++ subset.map Prod.fst).map fun v =>
              (v, (relevantAlts subset alts' v).map fun a => (a, v ++ "_" ++ lab a)))
            obsCol choiceCol i ac.1) ∘ fun a => (a, "availability_" ++ lab a)) =
        (l.filterMap fun a => rowAt df obsCol altCol x a).map fun r =>
          ({ obs := df.val obsCol r
             alt := df.val altCol r
             choice := df.val choiceCol r
             ind := indVars.map fun v => df.val v r
             spec := (altSpecificVars ++ subset.map Prod.fst).map fun v => df.val v r } :
            LongRow V) := by
      intro l hl
      induction l with
      | nil => rfl
      | cons a l ih =>
        have ih := ih fun b hb => hl b (by simp [hb])
        have haa := hl a (by simp)
        rw [List.filter_cons, List.filterMap_cons]
        have hav : (t.toFrame obsCol choiceCol).val ("availability_" ++ lab a) i =
            wideAvail df obsCol altCol x a := hread' _ _ (mAvail a haa)
        simp only [Function.comp_apply, hav, wideAvail]
        cases hrow : rowAt df obsCol altCol x a with
        | none =>
          simp only [Option.isSome_none, Bool.false_eq_true, if_false, zero_ne_one, decide_false]
          exact ih
        | some r =>
          obtain ⟨hr1, hr2⟩ := (hgetRow _ _ _).1 hrow
          simp only [Option.isSome_some, if_true, decide_true, List.map_cons]
          rw [show ∀ (p q : LongRow V) (u v : List (LongRow V)), (p :: u = q :: v) = (p = q ∧ u = v)
            from fun p q u v => by simp]
          refine ⟨?_, ih⟩
          simp only [longRow, Function.comp_apply, LongRow.mk.injEq]
          refine ⟨?_, hr2.symm, ?_, ?_, ?_⟩
          · rw [hread' _ _ mObs, hr1]; rfl
          · rw [hread' _ _ mChoice]
            by_cases e : r = chosen (df.val obsCol r)
            · rw [(chosen_rows_eq hc r).2 e, if_pos]
              rw [← hr2, ← hr1, ← e]
            · rw [hc.zero r e, if_neg]
              intro e'
              refine e (hd _ _ ?_ ?_)
              · rw [hc.mem]
              · rw [hr1, hr2, e']
          · refine List.map_congr_left fun v hv => ?_
            rw [hread' _ _ (mInd v hv)]
            exact hind v hv _ _ (by rw [hchm x hx, hr1])
          · rw [List.map_map]
            refine List.map_congr_left fun v hv => ?_
            simp only [Function.comp_apply]
            rw [lookup_map_pair]
            by_cases hrel : a ∈ relevantAlts subset alts' v
            · rw [if_pos hrel]
              simp only [Option.map_some, Option.getD_some]
              rw [hread' _ _ (mSpec v hv a hrel), wideCell, hrow]
              rfl
            · rw [if_neg hrel]
              simp only [Option.map_none, Option.getD_none]
              simp only [relevantAlts, List.mem_filter, haa, true_and] at hrel
              cases hlk : subset.lookup v with
              | none => simp [hlk] at hrel
              | some rel =>
                rw [hsub v rel hlk r]
                simpa [hlk, hr2] using hrel
    exact key alts' fun _ h => h
  have hfl : ((List.finRange t.obsIds.length).flatMap fun i =>
      (alts'.filterMap fun a =>
        rowAt df obsCol altCol (obs[i.val]'(by rw [← hlenobs]; exact i.2)) a)) =
      obs.flatMap fun x => alts'.filterMap fun a => rowAt df obsCol altCol x a := by
    have h1 : obs = (List.finRange t.obsIds.length).map fun i =>
        obs[i.val]'(by rw [← hlenobs]; exact i.2) := by
      refine List.ext_getElem (by simp [hlenobs]) fun j h1 h2 => ?_
      simp
    conv_rhs => rw [h1]
    rw [List.flatMap_map]
  refine (List.flatMap_congr fun i _ => hblock i).trans ?_
  refine List.map_flatMap.symm.trans ?_
  refine (congrArg _ hfl).trans ?_
  rw [rows_in_order ha hd hcon hsort, rowsOfFrame, List.ofFn_eq_map]

/-- The hypotheses of `long_wide_long` that are not already shown in `exLong_hyps`, for the table
`exLong`; the conclusion of the theorem then applies to it. -/
theorem exLong_roundtrip :
    ∃ t, convertLongToWide exFmt exLong ["inc"] ["x"] [] "id" "alt" "choice" none (-1) = .ok t ∧
      convertWideToLong (fun _ => false) (t.toFrame "id" "choice") ["inc"]
        [("x", [(1, "x_1"), (2, "x_2")])] [(1, "availability_1"), (2, "availability_2")] "id"
        "choice" = .ok (rowsOfFrame exLong "id" "alt" "choice" ["inc"] ["x"]) := by
  obtain ⟨h1, -, h3, h4⟩ := exLong_hyps
  refine ⟨_, h4, ?_⟩
  refine long_wide_long (fmt := exFmt) (altNames := none) (lab := exFmt) (alts := [1, 2])
    (subset := []) ?_ (fun _ _ => by rfl) h1 ?_ ?_ ?_ ?_ ?_ ?_ h4 (by decide)
  · refine ⟨by decide, fun a => ?_⟩
    constructor
    · intro h
      simp only [List.mem_cons, List.not_mem_nil, or_false] at h
      rcases h with rfl | rfl
      · exact ⟨(0 : Fin 5), rfl⟩
      · exact ⟨(1 : Fin 5), rfl⟩
    · rintro ⟨r, rfl⟩
      change Fin 5 at r
      fin_cases r <;> simp [exLong]
  · intro i j k hij hjk hk e
    simp only [Frame.colList, List.length_ofFn] at hk
    change k < 5 at hk
    have hk5 : k = 2 ∨ k = 3 ∨ k = 4 := by omega
    rcases hk5 with rfl | rfl | rfl
    · obtain ⟨rfl, rfl⟩ : i = 0 ∧ j = 1 := by omega
      exact absurd e (by simp [Frame.colList, exLong])
    · have : (i = 0 ∧ j = 1) ∨ (i = 0 ∧ j = 2) ∨ (i = 1 ∧ j = 2) := by omega
      rcases this with ⟨rfl, rfl⟩ | ⟨rfl, rfl⟩ | ⟨rfl, rfl⟩ <;> exact absurd e (by simp [Frame.colList, exLong])
    · have : i = 0 ∨ i = 1 ∨ i = 2 := by omega
      rcases this with rfl | rfl | rfl <;> exact absurd e (by simp [Frame.colList, exLong])
  · intro r s; change Fin 5 at r s
    fin_cases r <;> fin_cases s <;> decide
  · intro r; change Fin 5 at r
    fin_cases r
    · exact ⟨(2 : Fin 5), rfl, rfl⟩
    · exact ⟨(1 : Fin 5), rfl, rfl⟩
    · exact ⟨(2 : Fin 5), rfl, rfl⟩
    · exact ⟨(1 : Fin 5), rfl, rfl⟩
    · exact ⟨(1 : Fin 5), rfl, rfl⟩
  · simpa using h3
  · simp
  · simp

end Pylogit
