import Verif.Props.WideToLong
import Verif.Props.Mappings

/-!
# C13-C14: long-to-wide conversion
-/

set_option linter.unusedSectionVars false

namespace Pylogit

variable {V : Type} [LinearOrder V]

namespace Spec

/-- In the long table `df`, the observation with id `x` chose (only) row `chosen x`: choices are 0/1
and every observation has exactly one 1. -/
structure OneChoicePerObs [Zero V] [One V] (df : Frame V) (obsCol choiceCol : String)
    (chosen : V → Fin df.numRows) : Prop where
  mem : ∀ r, df.val obsCol (chosen (df.val obsCol r)) = df.val obsCol r
  one : ∀ r, df.val choiceCol (chosen (df.val obsCol r)) = 1
  zero : ∀ r, r ≠ chosen (df.val obsCol r) → df.val choiceCol r = 0

/-- The variable does not vary within observations. -/
def ConstantInObs (df : Frame V) (obsCol var : String) : Prop :=
  ∀ r s, df.val obsCol r = df.val obsCol s → df.val var r = df.val var s

/-- The row of observation `x` and alternative `a`, if there is one. -/
def rowAt (df : Frame V) (obsCol altCol : String) (x a : V) : Option (Fin df.numRows) :=
  (List.finRange df.numRows).find? fun r => decide (df.val obsCol r = x ∧ df.val altCol r = a)

/-- The cell a wide table should hold for a variable of observation `x` and alternative `a`. -/
def wideCell (df : Frame V) (obsCol altCol : String) (null : V) (var : String) (x a : V) : V :=
  ((rowAt df obsCol altCol x a).map (df.val var)).getD null

/-- The availability a wide table should hold. -/
def wideAvail [Zero V] [One V] (df : Frame V) (obsCol altCol : String) (x a : V) : V :=
  if (rowAt df obsCol altCol x a).isSome then 1 else 0

/-- `s` is the label of alternative `a` in the column names: its formatted id when no dictionary of
names is given, and otherwise the name the dictionary holds for it. -/
def LabelOf (fmt : V → String) (altNames : Option (List (V × String))) (a : V) (s : String) : Prop :=
  match altNames with
  | none => s = fmt a
  | some d => d.lookup a = some s

end Spec

open Spec

theorem altLabel_ok {fmt : V → String} {altNames : Option (List (V × String))} {a : V} {s : String} :
    altLabel fmt altNames a = .ok s ↔ LabelOf fmt altNames a s := by
  unfold altLabel LabelOf
  cases altNames with
  | none => simp [eq_comm]
  | some d => cases h : d.lookup a <;> simp [h]

theorem dropDuplicates_eq {α : Type} [LinearOrder α] (l : List α) :
    dropDuplicates l = firstAppearance l := by
  have key : ∀ (l acc : List α),
      l.foldl (fun acc x => if x ∈ acc then acc else acc ++ [x]) acc =
        acc ++ (firstAppearance l).filter fun y => decide (y ∉ acc) := by
    intro l
    induction l with
    | nil => simp [firstAppearance]
    | cons x l ih =>
      intro acc
      rw [List.foldl_cons, ih, firstAppearance]
      by_cases hx : x ∈ acc
      · rw [if_pos hx, List.filter_cons]
        simp only [hx, not_true_eq_false, decide_false, Bool.false_eq_true, if_false,
          List.filter_filter]
        congr 1
        refine List.filter_congr fun y _ => ?_
        by_cases hy : y ∈ acc
        · simp [hy]
        · have : y ≠ x := fun e => hy (e ▸ hx)
          simp [hy, this]
      · rw [if_neg hx, List.filter_cons]
        simp only [hx, not_false_eq_true, decide_true, if_true, List.filter_filter,
          List.append_assoc, List.singleton_append]
        congr 2
        refine List.filter_congr fun y _ => ?_
        by_cases hy : y = x <;> simp [hy]
  have := key l []
  rw [dropDuplicates, this]
  simp

theorem dropDuplicates_map {α β : Type} [LinearOrder α] [DecidableEq β] {g : α → β}
    (hg : Function.Injective g) (l : List α) :
    dropDuplicates (l.map g) = (dropDuplicates l).map g := by
  have key : ∀ (l acc : List α),
      (l.map g).foldl (fun acc x => if x ∈ acc then acc else acc ++ [x]) (acc.map g) =
        (l.foldl (fun acc x => if x ∈ acc then acc else acc ++ [x]) acc).map g := by
    intro l
    induction l with
    | nil => simp
    | cons x l ih =>
      intro acc
      simp only [List.map_cons, List.foldl_cons]
      by_cases hx : x ∈ acc
      · rw [if_pos (List.mem_map_of_mem hx), if_pos hx, ih]
      · rw [if_neg, if_neg hx, ← ih, List.map_append, List.map_singleton]
        intro h
        obtain ⟨y, hy, e⟩ := List.mem_map.1 h
        exact hx (hg e ▸ hy)
  exact key l []

/-! ## What acceptance means -/

theorem bind_ok_iff' {α β : Type} {x : Except Err β} {f : β → Except Err α} {y : α} :
    (x >>= f) = .ok y ↔ ∃ b, x = .ok b ∧ f b = .ok y := by
  cases x <;> simp [bind, Except.bind]

theorem mapM_ok_iff {α β : Type} {f : α → Except Err β} {l : List α} {out : List β} :
    l.mapM f = .ok out ↔ List.Forall₂ (fun x y => f x = .ok y) l out := by
  induction l generalizing out with
  | nil => simp [pure, Except.pure, eq_comm]
  | cons x l ih =>
    rw [List.mapM_cons, bind_ok_iff']
    simp only [bind_ok_iff', ih, pure, Except.pure, Except.ok.injEq]
    constructor
    · rintro ⟨b, hb, bs, hbs, rfl⟩
      exact .cons hb hbs
    · intro h
      cases h with
      | cons hb hbs => exact ⟨_, hb, _, hbs, rfl⟩

/-- Unfolding of a successful construction. -/
theorem buildWide_ok_iff [Ring V] {fmt : V → String} {df : Frame V}
    {indVars altSpecificVars : List String} {subset : List (String × List V)}
    {obsCol altCol choiceCol : String} {altNames : Option (List (V × String))} {null : V}
    {t : WideTable V} :
    buildWide fmt df indVars altSpecificVars subset obsCol altCol choiceCol altNames null =
      .ok t ↔
    ((((List.finRange df.numRows).filter fun r => decide (df.val choiceCol r = 1)).map
        fun r => df.val altCol r).length =
      (dropDuplicates
        (List.ofFn fun r => (df.val obsCol r, indVars.map fun v => df.val v r))).length) ∧
    ∃ labels, (npSort (npUnique (df.colList altCol))).mapM (altLabel fmt altNames) = .ok labels ∧
    ∃ dfs, (altSpecificVars ++ subset.map Prod.fst).mapM
      (varColumns fmt altNames df obsCol altCol null subset) = .ok dfs ∧
    dfs ≠ [] ∧
    t = { obsIds := (dropDuplicates
            (List.ofFn fun r => (df.val obsCol r, indVars.map fun v => df.val v r))).map Prod.fst
          choice := ((List.finRange df.numRows).filter fun r =>
            decide (df.val choiceCol r = 1)).map fun r => df.val altCol r
          avail := (List.finRange (npSort (npUnique (df.colList altCol))).length).map fun a =>
            ("availability_" ++ labels.getD a.val "",
              List.ofFn fun o => obsToAlt df obsCol altCol o a)
          ind := (List.finRange indVars.length).map fun k =>
            (indVars.get k, (dropDuplicates (List.ofFn fun r =>
              (df.val obsCol r, indVars.map fun v => df.val v r))).map fun t => t.2.getD k.val 0)
          spec := dfs.flatten } := by
  unfold buildWide
  simp only
  split_ifs with h
  · exact ⟨fun h' => (by cases h'), fun h' => absurd h'.1 h⟩
  · rw [not_not] at h
    rw [bind_ok_iff']
    refine ⟨?_, ?_⟩
    · rintro ⟨labels, h1, h2⟩
      rw [bind_ok_iff'] at h2
      obtain ⟨dfs, h2, h3⟩ := h2
      refine ⟨h, labels, h1, dfs, h2, ?_⟩
      split_ifs at h3 with h4
      exact ⟨by simpa using h4, (Except.ok.inj h3).symm⟩
    · rintro ⟨-, labels, h1, dfs, h2, h3, rfl⟩
      refine ⟨labels, h1, ?_⟩
      rw [bind_ok_iff']
      refine ⟨dfs, h2, ?_⟩
      rw [if_neg (by simpa using h3)]

theorem convertLongToWide_ok_iff [Ring V] {fmt : V → String} {df : Frame V}
    {indVars altSpecificVars : List String} {subset : List (String × List V)}
    {obsCol altCol choiceCol : String} {altNames : Option (List (V × String))} {null : V}
    {t : WideTable V} :
    convertLongToWide fmt df indVars altSpecificVars subset obsCol altCol choiceCol altNames null =
      .ok t ↔
    (∀ c ∈ indVars, c ∈ df.columns) ∧ (∀ c ∈ altSpecificVars, c ∈ df.columns) ∧
    (∀ c ∈ subset.map Prod.fst, c ∈ df.columns) ∧
    (∀ c ∈ [choiceCol, obsCol, altCol], c ∈ df.columns) ∧
    checkDuplicateRecords df obsCol altCol = .ok () ∧
    ensureNumChosen df obsCol choiceCol = .ok () ∧
    checkAltNameDict df altCol altNames = .ok () ∧
    buildWide fmt df indVars altSpecificVars subset obsCol altCol choiceCol altNames null =
      .ok t := by
  unfold convertLongToWide
  iterate 7 rw [bind_ok_iff]
  simp only [ensureColumns_ok]

theorem checkDuplicateRecords_ok {df : Frame V} {obsCol altCol : String} :
    checkDuplicateRecords df obsCol altCol = .ok () ↔
      ∀ r s, df.val obsCol r = df.val obsCol s → df.val altCol r = df.val altCol s → r = s := by
  unfold checkDuplicateRecords
  rw [ite_error, not_not, List.nodup_ofFn]
  constructor
  · intro h r s h1 h2; exact h (Prod.ext h1 h2)
  · intro h r s e; exact h r s (Prod.mk.inj e).1 (Prod.mk.inj e).2

/-! ## C14 -/

/-- **C14** (what the check does). It accepts iff the choices sum to the number of observations. -/
theorem ensureNumChosen_iff_total [AddMonoidWithOne V] (df : Frame V) (obsCol choiceCol : String) :
    ensureNumChosen df obsCol choiceCol = .ok () ↔
      (List.ofFn (df.val choiceCol)).sum =
        (((originalOrderUniqueIds (df.colList obsCol)).length : ℕ) : V) := by
  have hl : (npUnique (df.colList obsCol)).length =
      (originalOrderUniqueIds (df.colList obsCol)).length :=
    List.Perm.length_eq <| (List.perm_ext_iff_of_nodup (npUnique_nodup _)
      (originalOrder_nodup _)).2 fun x => by rw [mem_npUnique, mem_originalOrder]
  unfold ensureNumChosen
  simp only [hl]
  change _ ↔ (df.colList choiceCol).sum = _
  split_ifs with h1 h2
  · exact ⟨fun h => (by cases h), fun h => absurd h (ne_of_lt h1)⟩
  · exact ⟨fun h => (by cases h), fun h => absurd h (ne_of_gt h2)⟩
  · exact ⟨fun _ => le_antisymm (not_lt.1 h2) (not_lt.1 h1), fun _ => rfl⟩

theorem chosen_rows_eq [Zero V] [One V] [NeZero (1 : V)] {df : Frame V}
    {obsCol choiceCol : String} {chosen : V → Fin df.numRows}
    (hc : OneChoicePerObs df obsCol choiceCol chosen) (r : Fin df.numRows) :
    df.val choiceCol r = 1 ↔ r = chosen (df.val obsCol r) := by
  constructor
  · intro h
    by_contra hne
    rw [hc.zero r hne] at h
    exact NeZero.ne (1 : V) h.symm
  · intro h
    rw [h]; exact hc.one r

theorem chosen_perm [Zero V] [One V] [NeZero (1 : V)] {df : Frame V}
    {obsCol choiceCol : String} {chosen : V → Fin df.numRows}
    (hc : OneChoicePerObs df obsCol choiceCol chosen) :
    ((List.finRange df.numRows).filter fun r => decide (df.val choiceCol r = 1)).Perm
      ((originalOrderUniqueIds (df.colList obsCol)).map chosen) := by
  have hmem : ∀ x ∈ originalOrderUniqueIds (df.colList obsCol), ∃ r, df.val obsCol r = x :=
    fun x hx => mem_colList.1 (mem_originalOrder.1 hx)
  rw [List.perm_ext_iff_of_nodup ((List.nodup_finRange _).filter _)]
  · intro r
    simp only [List.mem_filter, List.mem_finRange, true_and, decide_eq_true_eq, List.mem_map,
      chosen_rows_eq hc]
    constructor
    · intro h
      exact ⟨_, mem_originalOrder.2 (mem_colList.2 ⟨r, rfl⟩), h.symm⟩
    · rintro ⟨x, hx, rfl⟩
      obtain ⟨s, rfl⟩ := hmem x hx
      rw [hc.mem]
  · refine List.Nodup.map_on ?_ (originalOrder_nodup _)
    intro x hx y hy e
    obtain ⟨r, rfl⟩ := hmem x hx
    obtain ⟨s, rfl⟩ := hmem y hy
    rw [← hc.mem r, ← hc.mem s, e]

theorem sum_zero_one [AddMonoidWithOne V] [DecidableEq V] (l : List V)
    (h : ∀ x ∈ l, x = 0 ∨ x = 1) [NeZero (1 : V)] :
    l.sum = ((l.countP fun x => decide (x = 1) : ℕ) : V) := by
  induction l with
  | nil => simp
  | cons x l ih =>
    rw [List.sum_cons, ih fun y hy => h y (by simp [hy]), List.countP_cons]
    rcases h x (by simp) with rfl | rfl
    · simp [eq_comm]
    · simp [Nat.cast_add, Nat.add_comm]

/-- **C14** (one direction). A table in which every observation has exactly one chosen row is
accepted by the check. -/
theorem one_choice_accepted_partial [AddMonoidWithOne V] [NeZero (1 : V)] (df : Frame V)
    (obsCol choiceCol : String) (chosen : V → Fin df.numRows)
    (hc : OneChoicePerObs df obsCol choiceCol chosen) :
    ensureNumChosen df obsCol choiceCol = .ok () := by
  rw [ensureNumChosen_iff_total, sum_zero_one]
  · have h1 := (chosen_perm hc).length_eq
    rw [List.length_map] at h1
    rw [← h1, ← List.countP_eq_length_filter, List.ofFn_eq_map, List.countP_map]
    rfl
  · intro x hx
    obtain ⟨r, rfl⟩ := List.mem_ofFn.1 hx
    by_cases h : r = chosen (df.val obsCol r)
    · exact Or.inr ((chosen_rows_eq hc r).2 h)
    · exact Or.inl (hc.zero r h)

/-- Two observations; the first chose both alternatives, the second none. -/
def exBadChoice : Frame ℤ where
  columns := ["id", "alt", "choice", "x"]
  numRows := 4
  val := fun c => if c = "id" then ![1, 1, 2, 2] else if c = "alt" then ![1, 2, 1, 2]
    else if c = "choice" then ![1, 1, 0, 0] else ![5, 6, 7, 8]

def exFmt (a : ℤ) : String := if a = 1 then "1" else "2"

/-- **C14** (negation). A table with one observation choosing twice and another choosing nothing is
accepted, and the second observation is given a choice it never made. -/
theorem two_and_zero_choices_accepted :
    convertLongToWide exFmt exBadChoice [] ["x"] [] "id" "alt" "choice" none (-1) =
      .ok { obsIds := [1, 2], choice := [1, 2],
            avail := [("availability_1", [1, 1]), ("availability_2", [1, 1])],
            ind := [], spec := [("x_1", [5, 7]), ("x_2", [6, 8])] } := by
  decide

/-! ## C13 -/

theorem rowAt_eq_some {df : Frame V} {obsCol altCol : String}
    (hd : ∀ r s, df.val obsCol r = df.val obsCol s → df.val altCol r = df.val altCol s → r = s)
    {x a : V} {r : Fin df.numRows} :
    rowAt df obsCol altCol x a = some r ↔ df.val obsCol r = x ∧ df.val altCol r = a := by
  unfold rowAt
  constructor
  · intro h
    simpa using List.find?_some h
  · rintro ⟨rfl, rfl⟩
    cases h : (List.finRange df.numRows).find? fun s =>
        decide (df.val obsCol s = df.val obsCol r ∧ df.val altCol s = df.val altCol r) with
    | none =>
      rw [List.find?_eq_none] at h
      exact absurd (h r (List.mem_finRange r)) (by simp)
    | some s =>
      have := List.find?_some h
      simp only [decide_eq_true_eq] at this
      rw [hd s r this.1 this.2]

theorem rowAt_eq_none {df : Frame V} {obsCol altCol : String} {x a : V} :
    rowAt df obsCol altCol x a = none ↔
      ∀ r, ¬ (df.val obsCol r = x ∧ df.val altCol r = a) := by
  unfold rowAt
  rw [List.find?_eq_none]
  simp

theorem obs_entry [Semiring V] (df : Frame V) (obsCol : String) (r : Fin df.numRows)
    (o : Fin (originalOrderUniqueIds (df.colList obsCol)).length) :
    rowsToObs (V := V) (df.colList obsCol) (r.cast (by simp [Frame.colList])) o =
      if df.val obsCol r = (originalOrderUniqueIds (df.colList obsCol)).get o then 1 else 0 := by
  rw [rowsToObs, sparseMappingDefault, sparseMapping_apply _ _ (originalOrder_nodup _)]
  have : (df.colList obsCol).get (r.cast (by simp [Frame.colList])) = df.val obsCol r := by
    simp only [Frame.colList, List.get_ofFn]
    rfl
  rw [this]

theorem alt_entry [Semiring V] (df : Frame V) (altCol : String) (r : Fin df.numRows)
    (a : Fin (npSort (npUnique (df.colList altCol))).length) :
    rowsToAlts (V := V) (df.colList altCol) (r.cast (by simp [Frame.colList])) a =
      if df.val altCol r = (npSort (npUnique (df.colList altCol))).get a then 1 else 0 := by
  rw [rowsToAlts, sparseMapping_apply _ _ (by rw [npSort_npUnique]; exact npUnique_nodup _)]
  have : (df.colList altCol).get (r.cast (by simp [Frame.colList])) = df.val altCol r := by
    simp only [Frame.colList, List.get_ofFn]
    rfl
  rw [this]

/-- A sum over rows with at most one matching row. -/
theorem sum_rowAt [Semiring V] {df : Frame V} {obsCol altCol : String}
    (hd : ∀ r s, df.val obsCol r = df.val obsCol s → df.val altCol r = df.val altCol s → r = s)
    (x a : V) (g : Fin df.numRows → V) :
    ∑ r, (if df.val obsCol r = x then (1 : V) else 0) * ((if df.val altCol r = a then 1 else 0) * g r)
      = ((rowAt df obsCol altCol x a).map g).getD 0 := by
  cases h : rowAt df obsCol altCol x a with
  | none =>
    rw [rowAt_eq_none] at h
    simp only [Option.map_none, Option.getD_none]
    refine Finset.sum_eq_zero fun r _ => ?_
    have := h r
    by_cases h1 : df.val obsCol r = x <;> by_cases h2 : df.val altCol r = a <;> simp [h1, h2]
    exact absurd ⟨h1, h2⟩ this
  | some s =>
    obtain ⟨rfl, rfl⟩ := (rowAt_eq_some hd).1 h
    simp only [Option.map_some, Option.getD_some]
    rw [Finset.sum_eq_single s]
    · simp
    · intro r _ hr
      by_cases h1 : df.val obsCol r = df.val obsCol s <;>
        by_cases h2 : df.val altCol r = df.val altCol s <;> simp [h1, h2]
      exact absurd (hd r s h1 h2) hr
    · simp

theorem obsToAlt_entry [Semiring V] {df : Frame V} {obsCol altCol : String}
    (hd : ∀ r s, df.val obsCol r = df.val obsCol s → df.val altCol r = df.val altCol s → r = s)
    (o) (a) :
    obsToAlt df obsCol altCol o a =
      wideAvail df obsCol altCol ((originalOrderUniqueIds (df.colList obsCol)).get o)
        ((npSort (npUnique (df.colList altCol))).get a) := by
  simp only [obsToAlt, Matrix.of_apply, obs_entry, alt_entry]
  have := sum_rowAt hd ((originalOrderUniqueIds (df.colList obsCol)).get o)
    ((npSort (npUnique (df.colList altCol))).get a) fun _ => 1
  simp only [mul_one] at this
  rw [this, wideAvail]
  cases rowAt df obsCol altCol _ _ <;> simp

theorem obsToVar_entry [Semiring V] [Nontrivial V] {df : Frame V} {obsCol altCol : String}
    {null : V} {col : String}
    (hd : ∀ r s, df.val obsCol r = df.val obsCol s → df.val altCol r = df.val altCol s → r = s)
    (o) (a) :
    obsToVar df obsCol altCol null col o a =
      wideCell df obsCol altCol null col ((originalOrderUniqueIds (df.colList obsCol)).get o)
        ((npSort (npUnique (df.colList altCol))).get a) := by
  simp only [obsToVar, Matrix.of_apply, obsToAlt_entry hd, obs_entry, alt_entry]
  rw [sum_rowAt hd, wideAvail, wideCell]
  cases rowAt df obsCol altCol _ _ <;> simp

theorem ofFn_get {α β : Type} (l : List α) (g : α → β) :
    (List.ofFn fun i => g (l.get i)) = l.map g := by
  have : (fun i => g (l.get i)) = g ∘ l.get := rfl
  rw [this, ← List.map_ofFn, List.ofFn_get]

theorem finRange_map_get {α β : Type} (l : List α) (g : α → β) :
    ((List.finRange l.length).map fun i => g (l.get i)) = l.map g := by
  rw [← List.ofFn_eq_map, ofFn_get]

/-- With contiguous observations, the chosen rows follow the order of the observations. -/
theorem chosen_ordered_of_contiguous {df : Frame V} {obsCol : String} {chosen : V → Fin df.numRows}
    (hmem : ∀ r, df.val obsCol (chosen (df.val obsCol r)) = df.val obsCol r)
    (hcon : Contiguous (df.colList obsCol)) :
    (originalOrderUniqueIds (df.colList obsCol)).Pairwise fun x y => chosen x < chosen y := by
  have hlen : (df.colList obsCol).length = df.numRows := by simp [Frame.colList]
  have hget : ∀ (r : ℕ) (h : r < (df.colList obsCol).length),
      (df.colList obsCol)[r] = df.val obsCol ⟨r, by omega⟩ := by
    intro r h; simp [Frame.colList]
  refine (originalOrder_pairwise (df.colList obsCol)).imp_of_mem ?_
  intro x y hx hy hlt
  rw [mem_originalOrder] at hx hy
  obtain ⟨r, rfl⟩ := mem_colList.1 hx
  obtain ⟨s, rfl⟩ := mem_colList.1 hy
  have hyl : (df.colList obsCol).idxOf (df.val obsCol s) < (df.colList obsCol).length :=
    List.idxOf_lt_length_iff.2 hy
  have hne : df.val obsCol r ≠ df.val obsCol s := by
    intro e; rw [e] at hlt; omega
  -- the chosen row of the later observation is not before its first row
  have h1 : (df.colList obsCol).idxOf (df.val obsCol s) ≤ (chosen (df.val obsCol s)).val := by
    by_contra hlt'
    have := List.not_of_lt_findIdx (p := (· == df.val obsCol s)) (not_le.1 hlt')
    rw [hget] at this
    simp [hmem] at this
  have h2 : (chosen (df.val obsCol r)).val < (df.colList obsCol).idxOf (df.val obsCol s) := by
    by_contra hge
    have hys : (df.colList obsCol)[(df.colList obsCol).idxOf (df.val obsCol s)] = df.val obsCol s := by
      simp
    have hcr : (df.colList obsCol)[(chosen (df.val obsCol r)).val]'(by
        rw [hlen]; exact (chosen _).2) = df.val obsCol r := by rw [hget]; exact hmem r
    rcases eq_or_lt_of_le (not_lt.1 hge) with e | e
    · simp only [← e] at hcr
      exact hne (hcr.symm.trans hys)
    · have := hcon _ _ _ hlt e (by rw [hlen]; exact (chosen _).2) (by rw [hcr]; simp)
      rw [hys, hcr] at this
      exact hne this.symm
  exact Fin.lt_def.2 (by omega)

theorem newDf_eq {df : Frame V} {obsCol : String} {indVars : List String}
    {chosen : V → Fin df.numRows}
    (hmem : ∀ r, df.val obsCol (chosen (df.val obsCol r)) = df.val obsCol r)
    (hind : ∀ v ∈ indVars, ConstantInObs df obsCol v) :
    dropDuplicates (List.ofFn fun r => (df.val obsCol r, indVars.map fun v => df.val v r)) =
      (originalOrderUniqueIds (df.colList obsCol)).map fun x =>
        (x, indVars.map fun v => df.val v (chosen x)) := by
  have h1 : (List.ofFn fun r => (df.val obsCol r, indVars.map fun v => df.val v r)) =
      (df.colList obsCol).map fun x => (x, indVars.map fun v => df.val v (chosen x)) := by
    rw [Frame.colList, List.map_ofFn]
    congr 1
    funext r
    simp only [Function.comp_apply, Prod.mk.injEq, true_and]
    refine List.map_congr_left fun v hv => hind v hv _ _ (hmem r).symm
  rw [h1, dropDuplicates_map (fun x y e => (Prod.mk.inj e).1), dropDuplicates_eq,
    unique_ids_eq_firstAppearance]

/-- **C13** (what is true). Suppose every observation has exactly one chosen row, the chosen rows
come in the order in which the observations first appear (e.g. because observations are contiguous),
and the individual variables do not vary within observations.  Then, whenever the conversion
succeeds: there is one row per observation in first-appearance order; it holds the observation's own
chosen alternative and individual variables; the availability column of the k-th alternative
(ascending) is 1 where the observation has a row for it and 0 elsewhere; and each
alternative-specific column holds the value of the observation's row for that alternative, or the
null value. -/
theorem long_to_wide_partial [Ring V] [Nontrivial V] {fmt : V → String} {df : Frame V}
    {indVars altSpecificVars : List String} {subset : List (String × List V)}
    {obsCol altCol choiceCol : String} {altNames : Option (List (V × String))} {null : V}
    {t : WideTable V} {chosen : V → Fin df.numRows}
    (hc : OneChoicePerObs df obsCol choiceCol chosen)
    (hord : (originalOrderUniqueIds (df.colList obsCol)).Pairwise fun x y => chosen x < chosen y)
    (hind : ∀ v ∈ indVars, ConstantInObs df obsCol v)
    (h : convertLongToWide fmt df indVars altSpecificVars subset obsCol altCol choiceCol altNames
      null = .ok t) :
    let obs := firstAppearance (df.colList obsCol)
    ∃ alts : List V, AltsOf df altCol alts ∧ ∃ lab : V → String,
      (∀ a ∈ alts, LabelOf fmt altNames a (lab a)) ∧
      t.obsIds = obs ∧
      t.choice = obs.map (fun x => df.val altCol (chosen x)) ∧
      t.avail = alts.map (fun a =>
        ("availability_" ++ lab a, obs.map fun x => wideAvail df obsCol altCol x a)) ∧
      t.ind = indVars.map (fun v => (v, obs.map fun x => df.val v (chosen x))) ∧
      t.spec = (altSpecificVars ++ subset.map Prod.fst).flatMap fun v =>
        (alts.filter fun a => match subset.lookup v with
            | none => true
            | some rel => decide (a ∈ rel)).map fun a =>
          (v ++ "_" ++ lab a, obs.map fun x => wideCell df obsCol altCol null v x a) := by
  classical
  intro obs
  obtain ⟨-, -, -, -, hdup, -, -, hb⟩ := convertLongToWide_ok_iff.1 h
  have hd := checkDuplicateRecords_ok.1 hdup
  obtain ⟨-, labels, hlab, dfs, hdfs, -, rfl⟩ := buildWide_ok_iff.1 hb
  have hobs : originalOrderUniqueIds (df.colList obsCol) = obs := unique_ids_eq_firstAppearance _
  have hnew := newDf_eq hc.mem hind
  have halts : AltsOf df altCol (npSort (npUnique (df.colList altCol))) :=
    ⟨by rw [npSort_npUnique]; exact npUnique_strict _,
      fun a => by rw [npSort_npUnique, mem_npUnique, mem_colList]⟩
  have hnd : (npSort (npUnique (df.colList altCol))).Nodup :=
    halts.ascending.imp fun h => ne_of_lt h
  -- the labels as a function of the alternative
  have hl2 := mapM_ok_iff.1 hlab
  have hlen : (npSort (npUnique (df.colList altCol))).length = labels.length := hl2.length_eq
  let lab : V → String := fun a =>
    labels.getD ((npSort (npUnique (df.colList altCol))).idxOf a) ""
  have hget : ∀ a : Fin (npSort (npUnique (df.colList altCol))).length,
      labels.getD a.val "" = lab ((npSort (npUnique (df.colList altCol))).get a) := by
    intro a
    simp only [lab]
    rw [List.get_idxOf hnd]
  have hlabel : ∀ a ∈ npSort (npUnique (df.colList altCol)),
      LabelOf fmt altNames a (lab a) := by
    intro a ha
    rw [← altLabel_ok]
    obtain ⟨i, rfl⟩ := List.get_of_mem ha
    rw [← hget i]
    have := (List.forall₂_iff_get.1 hl2).2 i.val i.2 (by omega)
    have hi : i.val < labels.length := by omega
    simp only [List.getD_eq_getElem?_getD, List.getElem?_eq_getElem hi, Option.getD_some]
    exact this
  refine ⟨_, halts, lab, hlabel, ?_, ?_, ?_, ?_, ?_⟩
  · simp only [hnew, List.map_map, hobs]
    simp [Function.comp_def]
  · have : ((List.finRange df.numRows).filter fun r => decide (df.val choiceCol r = 1)) =
        (originalOrderUniqueIds (df.colList obsCol)).map chosen := by
      refine (chosen_perm hc).eq_of_pairwise (le := (· < ·))
        (fun a b _ _ hab hba => absurd hab (lt_asymm hba)) ?_ ?_
      · exact (List.pairwise_lt_finRange _).filter _
      · exact List.pairwise_map.2 hord
    simp only [this, List.map_map, hobs]
    rfl
  · simp only [obsToAlt_entry hd, hget]
    conv_rhs => rw [← finRange_map_get]
    refine List.map_congr_left fun a _ => ?_
    simp only [Prod.mk.injEq, true_and]
    rw [← hobs, ← ofFn_get]
  · simp only [hnew, List.map_map, hobs]
    rw [← finRange_map_get indVars]
    refine List.map_congr_left fun k _ => ?_
    simp [Function.comp_def]
  · have h2 := mapM_ok_iff.1 hdfs
    have : dfs = (altSpecificVars ++ subset.map Prod.fst).map fun v =>
        ((npSort (npUnique (df.colList altCol))).filter fun a => match subset.lookup v with
            | none => true
            | some rel => decide (a ∈ rel)).map fun a =>
          (v ++ "_" ++ lab a, obs.map fun x => wideCell df obsCol altCol null v x a) := by
      rw [← List.forall₂_eq_eq_eq, List.forall₂_map_right_iff]
      refine (List.Forall₂.flip h2).imp ?_
      intro d v hv
      simp only [varColumns, bind_ok_iff'] at hv
      obtain ⟨labels', hl', hv⟩ := hv
      rw [hlab] at hl'
      obtain rfl := Except.ok.inj hl'
      rw [← Except.ok.inj hv]
      have hfr : (List.finRange (npSort (npUnique (df.colList altCol))).length).map
          (npSort (npUnique (df.colList altCol))).get = npSort (npUnique (df.colList altCol)) := by
        rw [← List.ofFn_eq_map, List.ofFn_get]
      conv_rhs => rw [← hfr]
      rw [List.filter_map, List.map_map]
      refine List.map_congr_left fun a _ => ?_
      simp only [Function.comp_apply, Prod.mk.injEq]
      refine ⟨by rw [hget], ?_⟩
      simp only [obsToVar_entry hd]
      rw [← hobs, ← ofFn_get]
    rw [this]
    rfl

/-- **C13**. When the conversion succeeds with a dictionary of alternative names, the dictionary
names exactly the alternatives that occur in the table. -/
theorem long_to_wide_names [Ring V] {fmt : V → String} {df : Frame V}
    {indVars altSpecificVars : List String} {subset : List (String × List V)}
    {obsCol altCol choiceCol : String} {names : List (V × String)} {null : V} {t : WideTable V}
    (h : convertLongToWide fmt df indVars altSpecificVars subset obsCol altCol choiceCol
      (some names) null = .ok t) (a : V) :
    a ∈ names.map Prod.fst ↔ ∃ r, df.val altCol r = a := by
  obtain ⟨-, -, -, -, -, -, hn, hb⟩ := convertLongToWide_ok_iff.1 h
  obtain ⟨-, labels, hlab, -⟩ := buildWide_ok_iff.1 hb
  constructor
  · intro ha
    simp only [checkAltNameDict] at hn
    split_ifs at hn with hk
    exact mem_colList.1 (hk a ha)
  · intro ha
    have hm : a ∈ npSort (npUnique (df.colList altCol)) := by
      rw [npSort_npUnique, mem_npUnique, mem_colList]; exact ha
    obtain ⟨i, rfl⟩ := List.get_of_mem hm
    have hl2 := mapM_ok_iff.1 hlab
    have hi := (List.forall₂_iff_get.1 hl2).2 i.val i.2 (by rw [← hl2.length_eq]; exact i.2)
    have : names.lookup _ = some _ := altLabel_ok.1 hi
    by_contra hne
    rw [List.lookup_eq_none_iff.2] at this
    · cases this
    · intro p hp
      have : p.1 ∈ names.map Prod.fst := List.mem_map_of_mem hp
      simp only [beq_eq_false_iff_ne, bne_iff_ne, ne_eq]
      rintro e
      exact hne (by rw [← e] at this; simpa using this)

/-- Three observations of two alternatives, the third without alternative 1. -/
def exLong : Frame ℤ where
  columns := ["id", "alt", "choice", "x", "inc"]
  numRows := 5
  val := fun c => if c = "id" then ![7, 7, 3, 3, 5] else if c = "alt" then ![1, 2, 1, 2, 2]
    else if c = "choice" then ![0, 1, 1, 0, 1] else if c = "x" then ![4, 5, 6, 8, 9]
    else ![10, 10, 20, 20, 30]

def exLongChosen (x : ℤ) : Fin exLong.numRows :=
  if x = 7 then (1 : Fin 5) else if x = 3 then (2 : Fin 5) else (4 : Fin 5)

/-- The hypotheses of `long_to_wide_partial` on a concrete table, with the result. -/
theorem exLong_hyps : OneChoicePerObs exLong "id" "choice" exLongChosen ∧
    ((originalOrderUniqueIds (exLong.colList "id")).Pairwise
      fun x y => exLongChosen x < exLongChosen y) ∧
    ConstantInObs exLong "id" "inc" ∧
    convertLongToWide exFmt exLong ["inc"] ["x"] [] "id" "alt" "choice" none (-1) =
      .ok { obsIds := [7, 3, 5], choice := [2, 1, 2],
            avail := [("availability_1", [1, 1, 0]), ("availability_2", [1, 1, 1])],
            ind := [("inc", [10, 20, 30])],
            spec := [("x_1", [4, 6, -1]), ("x_2", [5, 8, 9])] } := by
  refine ⟨⟨?_, ?_, ?_⟩, by decide, ?_, by decide⟩
  · intro r; change Fin 5 at r; fin_cases r <;> rfl
  · intro r; change Fin 5 at r; fin_cases r <;> rfl
  · intro r h; change Fin 5 at r
    fin_cases r <;> first
      | rfl
      | exact absurd rfl h
  · intro r s h; change Fin 5 at r s
    fin_cases r <;> fin_cases s <;> first
      | rfl
      | exact absurd h (by decide)

/-- A conversion with names that `long_to_wide_names` applies to, and the two ways to fail. -/
example :
    convertLongToWide exFmt exLong ["inc"] ["x"] [] "id" "alt" "choice"
        (some [(2, "bus"), (1, "car")]) (-1) =
      .ok { obsIds := [7, 3, 5], choice := [2, 1, 2],
            avail := [("availability_car", [1, 1, 0]), ("availability_bus", [1, 1, 1])],
            ind := [("inc", [10, 20, 30])],
            spec := [("x_car", [4, 6, -1]), ("x_bus", [5, 8, 9])] } ∧
    convertLongToWide exFmt exLong ["inc"] ["x"] [] "id" "alt" "choice"
        (some [(2, "bus")]) (-1) = .error .keyError ∧
    convertLongToWide exFmt exLong ["inc"] ["x"] [] "id" "alt" "choice"
        (some [(2, "bus"), (1, "car"), (9, "jet")]) (-1) = .error .valueError := by decide

/-- A valid table (one choice per observation) whose rows are not grouped by observation. -/
def exInterleaved : Frame ℤ where
  columns := ["id", "alt", "choice", "x"]
  numRows := 4
  val := fun c => if c = "id" then ![1, 2, 2, 1] else if c = "alt" then ![1, 1, 2, 2]
    else if c = "choice" then ![0, 1, 0, 1] else ![5, 6, 7, 8]

/-- **C13** (negation). Observation 1 chose alternative 2 and observation 2 chose alternative 1; the
conversion accepts the table and returns the choices swapped. -/
theorem long_to_wide_swaps_choices :
    OneChoicePerObs exInterleaved "id" "choice"
      (fun x => if x = 1 then (3 : Fin 4) else (1 : Fin 4)) ∧
    exInterleaved.val "alt" (3 : Fin 4) = 2 ∧ exInterleaved.val "alt" (1 : Fin 4) = 1 ∧
    convertLongToWide exFmt exInterleaved [] ["x"] [] "id" "alt" "choice" none (-1) =
      .ok { obsIds := [1, 2], choice := [1, 2],
            avail := [("availability_1", [1, 1]), ("availability_2", [1, 1])],
            ind := [], spec := [("x_1", [5, 6]), ("x_2", [8, 7])] } := by
  refine ⟨⟨?_, ?_, ?_⟩, rfl, rfl, by decide⟩
  · intro r; change Fin 4 at r; fin_cases r <;> rfl
  · intro r; change Fin 4 at r; fin_cases r <;> rfl
  · intro r h; change Fin 4 at r
    fin_cases r <;> first
      | rfl
      | exact absurd rfl h

end Pylogit
