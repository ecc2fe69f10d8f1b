import Verif.Lemmas.Panel

/-!
# C47: panel predictions of the mixed logit

`old`, `new`: the individual of each row of the estimation table and of the new table.  `drawOf j i d`:
the `d`-th draw for variable `j` of the individual `i` of the new table.
-/

set_option linter.unusedSectionVars false

open Finset Matrix Function

namespace Pylogit

open Spec

variable {O' K J D ι : Type} [Fintype O'] [DecidableEq O'] [Fintype K] [DecidableEq K] [Fintype J]
  [Fintype D] [LinearOrder ι] {nObs : ℕ}

/-- The individual whose draws the code uses for the history of individual `i`: the one that has, among
the common individuals in the order of the new table, the rank that `i` has in the order of the
old table. -/
def Spec.donor (old new : List ι) (i : ι) : ι :=
  ((firstAppearance new).filter fun x => x ∈ old).getD
    (((firstAppearance old).filter fun x => x ∈ new).idxOf i) i

theorem donor_self {old new : List ι} (h : SameOrder old new) {i : ι} (ho : i ∈ old)
    (hn : i ∈ new) : donor old new i = i := by
  unfold donor
  rw [← unique_ids_eq_firstAppearance, ← unique_ids_eq_firstAppearance, repeats_eq_of_sameOrder h]
  have hm : i ∈ (originalOrderUniqueIds new).filter fun x => x ∈ old := by
    simp [mem_originalOrder, ho, hn]
  rw [List.getD_eq_getElem?_getD, getElem?_idxOf hm]
  rfl

theorem donor_get (old new : List ι) (m : Fin (oldRepeatPos old new).length)
    (m' : Fin (newRepeatPos old new).length) (hm : m.1 = m'.1) :
    donor old new ((originalOrderUniqueIds old).get ((oldRepeatPos old new).get m)) =
      (originalOrderUniqueIds new).get ((newRepeatPos old new).get m') := by
  unfold donor
  rw [← unique_ids_eq_firstAppearance, ← unique_ids_eq_firstAppearance, ← newRepeatPos_map,
    ← oldRepeatPos_map]
  have hnd : ((oldRepeatPos old new).map (originalOrderUniqueIds old).get).Nodup := by
    rw [oldRepeatPos_map]; exact (originalOrder_nodup _).filter _
  have h1 : (originalOrderUniqueIds old).get ((oldRepeatPos old new).get m) =
      ((oldRepeatPos old new).map (originalOrderUniqueIds old).get)[m.1]'(by simp) := by
    rw [List.getElem_map]; rfl
  rw [h1, hnd.idxOf_getElem, List.getD_eq_getElem?_getD]
  have h2 : ((newRepeatPos old new).map (originalOrderUniqueIds new).get)[m.1]? =
      some ((originalOrderUniqueIds new).get ((newRepeatPos old new).get m')) := by
    rw [hm, List.getElem?_map, List.getElem?_eq_getElem m'.2]
    rfl
  rw [h2]
  rfl

/-- The past sequence probabilities of the code. -/
theorem past_sequence_probs (old new : List ι) (mean : K → ℝ) (sd : J → ℝ) (pos : J → K)
    (drawOf : J → ι → D → ℝ) (oldX : Matrix (Fin old.length) K ℝ)
    {oldB : Matrix (Fin old.length) (Fin nObs) ℝ} {fo : Fin old.length → Fin nObs}
    (hfo : Indicates oldB fo) (hpanel : PanelData fo old.get) {y : Fin old.length → ℝ}
    (hy : ZeroOne y) :
    ∃ seq, pastSequenceProbs old new (Sum.elim mean sd) pos
        (fun j c d => drawOf j ((originalOrderUniqueIds new).get c) d) oldX oldB y = .ok seq ∧
      ∀ m d, seq m d = historyProb old.get fo oldX y mean sd pos drawOf
        (donor old new ((originalOrderUniqueIds old).get ((keptCols (rowsToObs (V := ℝ) old)
          (oldRepeatRow old new)).get m)))
        ((originalOrderUniqueIds old).get ((keptCols (rowsToObs (V := ℝ) old)
          (oldRepeatRow old new)).get m)) d := by
  obtain ⟨g, hg, hgid⟩ := rowsToObs_indicates old
  obtain ⟨g', hg', hg'k⟩ := filterPast_indicates hg (oldRepeatRow old new)
  obtain ⟨f', hf', hf'k⟩ := filterPast_indicates hfo (oldRepeatRow old new)
  have hkc := keptCols_eq old new
  have hlen : (keptCols (rowsToObs (V := ℝ) old) (oldRepeatRow old new)).length =
      (newRepeatPos old new).length := by rw [hkc]; exact repeats_length old new
  refine ⟨_, by unfold pastSequenceProbs; rw [dif_pos hlen], fun m d => ?_⟩
  have hdonor : donor old new ((originalOrderUniqueIds old).get ((keptCols (rowsToObs (V := ℝ) old) (oldRepeatRow old new)).get m)) =
      (originalOrderUniqueIds new).get ((newRepeatPos old new).get (m.cast hlen)) := by
    have hl : (keptCols (rowsToObs (V := ℝ) old) (oldRepeatRow old new)).length = (oldRepeatPos old new).length := by rw [hkc]
    have := donor_get old new (m.cast hl) (m.cast hlen) rfl
    rw [← this]
    congr 2
    simp only [List.get_eq_getElem, Fin.val_cast]
    congr 1
  have hgm : ∀ r, g' r = m ↔ old.get r.1 = (originalOrderUniqueIds old).get ((keptCols (rowsToObs (V := ℝ) old) (oldRepeatRow old new)).get m) := by
    intro r
    constructor
    · rintro rfl
      rw [hg'k, hgid]
    · intro e
      rw [← hgid] at e
      have e' := List.nodup_iff_injective_get.1 (originalOrder_nodup old) e
      rw [← hg'k] at e'
      exact List.nodup_iff_injective_get.1 (keptCols_nodup _ _) e'
  have hmask : ∀ r, old.get r = (originalOrderUniqueIds old).get ((keptCols (rowsToObs (V := ℝ) old) (oldRepeatRow old new)).get m) → oldRepeatRow old new r := by
    intro r hr
    have : (keptCols (rowsToObs (V := ℝ) old) (oldRepeatRow old new)).get m ∈ oldRepeatPos old new := by rw [← hkc]; exact List.get_mem _ _
    rw [oldRepeatPos, List.mem_filter] at this
    rw [oldRepeatRow, hr]
    simpa using this.2
  refine (expanded_sequence_probability hg' (p := kernelProbs _ _ _)
    (fun r d => longProbs_pos hf' _ _) (fun r => hy r.1) m d).trans ?_
  refine sequenceProb_subtype (g := old.get) hgm hmask y fun r hr => ?_
  simp only [kernelProbs]
  rw [longProbs_eq_clippedLogit hf']
  refine clippedLogit_subtype (f := fo) (fun r s => ?_) (fun r s hrs hr => ?_) fun s hs => ?_
  · rw [← hf'k, ← hf'k]
    exact (List.nodup_iff_injective_get.1 (keptCols_nodup _ _)).eq_iff.symm
  · rw [oldRepeatRow, ← hpanel r s hrs]; exact hr
  · rw [pastRowsToMixers, expanded_utility hg']
    have hsm : g' s = m := (hgm s).2 ((hpanel _ _ hs).trans hr)
    simp only [hsm, randomCoef, hdonor, Matrix.of_apply]

/-- The exact behaviour: the prediction for a row of an individual with a history is the average of
the row's probabilities under the individual's draws, weighted by the probability of the
individual's history *under the draws of the individual of the same rank*; for an individual
without history it is the plain average. -/
theorem panel_predict_exact (old new : List ι) (mean : K → ℝ) (sd : J → ℝ)
    (pos : J → K) (drawOf : J → ι → D → ℝ) (newX : Matrix (Fin new.length) K ℝ)
    {newB : Matrix (Fin new.length) O' ℝ} {fn : Fin new.length → O'} (hfn : Indicates newB fn)
    (oldX : Matrix (Fin old.length) K ℝ) {oldB : Matrix (Fin old.length) (Fin nObs) ℝ}
    {fo : Fin old.length → Fin nObs} (hfo : Indicates oldB fo) (hpanel : PanelData fo old.get)
    {y : Fin old.length → ℝ} (hy : ZeroOne y) :
    ∃ l, panelPredictLong old new (Sum.elim mean sd) pos
        (fun j c d => drawOf j ((originalOrderUniqueIds new).get c) d) newX newB oldX oldB y
        = .ok l ∧
      ∀ r, l r = if new.get r ∈ old then
          weightedAverage
            (historyProb old.get fo oldX y mean sd pos drawOf (donor old new (new.get r)) (new.get r))
            (newRowProb new.get fn newX mean sd pos drawOf r)
        else average (newRowProb new.get fn newX mean sd pos drawOf r) := by
  obtain ⟨seq, hseq, hval⟩ := past_sequence_probs old new mean sd pos drawOf oldX hfo hpanel hy
  have hkc := keptCols_eq old new
  have hlen : (keptCols (rowsToObs (V := ℝ) old) (oldRepeatRow old new)).length =
      (oldRepeatPos old new).length := by rw [hkc]
  obtain ⟨g, hg, hgid⟩ := rowsToObs_indicates new
  refine ⟨_, by
    unfold panelPredictLong
    simp only [hseq, bind, Except.bind]
    rw [dif_pos hlen], fun r => ?_⟩
  have hker : ∀ d, kernelProbs (Sum.elim mean sd) (expandedDesign newX
      (fun j c d => drawOf j ((originalOrderUniqueIds new).get c) d) pos (rowsToObs new)) newB r d =
      newRowProb new.get fn newX mean sd pos drawOf r d := by
    intro d
    simp only [kernelProbs, expanded_utility hg]
    rw [longProbs_eq_clippedLogit hfn]
    simp only [newRowProb, randomCoef, hgid]
  simp only [mulVec_indicates hg, hker]
  have hmem : g r ∈ newRepeatPos old new ↔ new.get r ∈ old := by
    simp only [newRepeatPos, List.mem_filter, List.mem_finRange, true_and, decide_eq_true_eq, hgid,
      mem_originalOrder]
  by_cases h : new.get r ∈ old
  · rw [if_pos h]
    -- the position of the individual among the repeated old individuals
    have hp : new.get r ∈ (oldRepeatPos old new).map (originalOrderUniqueIds old).get := by
      rw [oldRepeatPos_map]
      simp only [List.mem_filter, mem_originalOrder, decide_eq_true_eq]
      exact ⟨h, List.get_mem _ _⟩
    obtain ⟨c, hc, hcid⟩ := List.mem_map.1 hp
    rw [← hkc] at hc
    obtain ⟨m, rfl⟩ := List.get_of_mem hc
    have hw : ∀ d, weightsPerIndPerDraw old new (rearrangedPastWeights old new seq hlen) (g r) d =
        seq m d / ∑ d, seq m d := by
      intro d
      have hget : (newRepeatPos old new).get ⟨(newRepeatPos old new).idxOf (g r),
          List.idxOf_lt_length_iff.2 (hmem.2 h)⟩ = g r := by
        simp
      simp only [weightsPerIndPerDraw]
      rw [dif_pos (hmem.2 h)]
      simp only [rearrangedPastWeights, mulVec, dotProduct, Matrix.of_apply, hget, hgid]
      rw [Finset.sum_eq_single m]
      · rw [if_pos, one_mul]
        rw [← hcid]
        congr 1
        simp only [List.get_eq_getElem, Fin.val_cast]
        simp only [hkc]
      · intro m2 _ hne
        rw [if_neg, zero_mul]
        intro e
        refine hne ?_
        have e2 := List.nodup_iff_injective_get.1 (originalOrder_nodup old) (hcid.trans e)
        simp only [List.get_eq_getElem, Fin.val_cast, hkc] at e2
        have hnd : (oldRepeatPos old new).Nodup := (List.nodup_finRange _).filter _
        exact Fin.ext ((hnd.getElem_inj_iff).1 e2).symm
      · intro hn; exact absurd (Finset.mem_univ _) hn
    simp only [hw, weightedAverage]
    have hS : ∀ d, seq m d = historyProb old.get fo oldX y mean sd pos drawOf
        (donor old new (new.get r)) (new.get r) d := by
      intro d
      rw [hval m d, hcid]
    simp only [hS]
    rw [Finset.sum_div]
    exact Finset.sum_congr rfl fun d _ => by ring
  · rw [if_neg h]
    have hw : ∀ d, weightsPerIndPerDraw old new (rearrangedPastWeights old new seq hlen) (g r) d =
        1 / (Fintype.card D : ℝ) := by
      intro d
      simp only [weightsPerIndPerDraw]
      rw [dif_neg fun h' => h (hmem.1 h')]
    simp only [hw, average, Finset.mul_sum, one_div]

/-- **C47** (partial): when the common individuals appear in the same order in both tables, every
individual's draws are weighted by the probability of their own history under their own draws;
individuals without history get equal weights.  Missing: tables that list the individuals in
different orders, for which the claim is false (`panel_predict_wrong_order`). -/
theorem panel_predict_partial (old new : List ι) (hord : SameOrder old new)
    (mean : K → ℝ) (sd : J → ℝ)
    (pos : J → K) (drawOf : J → ι → D → ℝ) (newX : Matrix (Fin new.length) K ℝ)
    {newB : Matrix (Fin new.length) O' ℝ} {fn : Fin new.length → O'} (hfn : Indicates newB fn)
    (oldX : Matrix (Fin old.length) K ℝ) {oldB : Matrix (Fin old.length) (Fin nObs) ℝ}
    {fo : Fin old.length → Fin nObs} (hfo : Indicates oldB fo) (hpanel : PanelData fo old.get)
    {y : Fin old.length → ℝ} (hy : ZeroOne y) :
    ∃ l, panelPredictLong old new (Sum.elim mean sd) pos
        (fun j c d => drawOf j ((originalOrderUniqueIds new).get c) d) newX newB oldX oldB y
        = .ok l ∧
      ∀ r, l r = if new.get r ∈ old then
          weightedAverage
            (historyProb old.get fo oldX y mean sd pos drawOf (new.get r) (new.get r))
            (newRowProb new.get fn newX mean sd pos drawOf r)
        else average (newRowProb new.get fn newX mean sd pos drawOf r) := by
  obtain ⟨l, h1, h2⟩ := panel_predict_exact old new mean sd pos drawOf newX hfn oldX hfo hpanel hy
  refine ⟨l, h1, fun r => ?_⟩
  rw [h2]
  by_cases h : new.get r ∈ old
  · rw [if_pos h, if_pos h, donor_self hord h (List.get_mem _ _)]
  · rw [if_neg h, if_neg h]

theorem historyProb_pos {R O : Type} [Fintype R] [DecidableEq O] (ids : R → ι) (f : R → O)
    (X : Matrix R K ℝ) (y : R → ℝ) (mean : K → ℝ) (sd : J → ℝ) (pos : J → K)
    (draws : J → ι → D → ℝ) (who i : ι) (d : D) :
    0 < historyProb ids f X y mean sd pos draws who i d := by
  refine Finset.prod_pos fun r _ => ?_
  refine div_pos (Real.exp_pos _) (Finset.sum_pos (fun s _ => Real.exp_pos _) ⟨r, by simp⟩)

/-- **C47** (sums): whatever the orders of the tables, the predictions of every observation sum to
one (when all its rows belong to one individual). -/
theorem panel_predict_sums [Nonempty D] (old new : List ι) (mean : K → ℝ) (sd : J → ℝ)
    (pos : J → K) (drawOf : J → ι → D → ℝ) (newX : Matrix (Fin new.length) K ℝ)
    {newB : Matrix (Fin new.length) O' ℝ} {fn : Fin new.length → O'} (hfn : Indicates newB fn)
    (hpanel' : PanelData fn new.get)
    (oldX : Matrix (Fin old.length) K ℝ) {oldB : Matrix (Fin old.length) (Fin nObs) ℝ}
    {fo : Fin old.length → Fin nObs} (hfo : Indicates oldB fo) (hpanel : PanelData fo old.get)
    {y : Fin old.length → ℝ} (hy : ZeroOne y) :
    ∃ l, panelPredictLong old new (Sum.elim mean sd) pos
        (fun j c d => drawOf j ((originalOrderUniqueIds new).get c) d) newX newB oldX oldB y
        = .ok l ∧
      ∀ r, ∑ s ∈ rowsOf fn (fn r), l s = 1 := by
  obtain ⟨l, h1, h2⟩ := panel_predict_exact old new mean sd pos drawOf newX hfn oldX hfo hpanel hy
  refine ⟨l, h1, fun r => ?_⟩
  have hk : ∀ d, ∑ s ∈ rowsOf fn (fn r), newRowProb new.get fn newX mean sd pos drawOf s d = 1 := by
    intro d
    have := longProbs_sum hfn (fun s => ∑ k, newX s k *
      randomCoef mean sd pos drawOf (new.get s) d k) r
    simp only [longProbs_eq_clippedLogit hfn] at this
    exact this
  have hid : ∀ s ∈ rowsOf fn (fn r), new.get s = new.get r := fun s hs =>
    hpanel' s r (mem_rowsOf.1 hs)
  by_cases h : new.get r ∈ old
  · have : ∀ s ∈ rowsOf fn (fn r), l s = weightedAverage
        (historyProb old.get fo oldX y mean sd pos drawOf (donor old new (new.get r)) (new.get r))
        (newRowProb new.get fn newX mean sd pos drawOf s) := by
      intro s hs
      rw [h2, hid s hs, if_pos h]
    rw [Finset.sum_congr rfl this]
    simp only [weightedAverage]
    rw [← Finset.sum_div, Finset.sum_comm]
    simp only [← Finset.mul_sum, hk, mul_one]
    exact div_self (Finset.sum_pos (fun d _ => historyProb_pos _ _ _ _ _ _ _ _ _ _ _)
      Finset.univ_nonempty).ne'
  · have : ∀ s ∈ rowsOf fn (fn r), l s = average
        (newRowProb new.get fn newX mean sd pos drawOf s) := by
      intro s hs
      rw [h2, hid s hs, if_neg h]
    rw [Finset.sum_congr rfl this]
    simp only [average]
    rw [← Finset.mul_sum, Finset.sum_comm]
    simp only [hk]
    simp

/-- **C47** (results): `panel_predict` raises `ValueError` if neither the long probabilities nor a choice
column is asked for; otherwise it returns the parts asked for, the chosen probability of an
observation being the long probability of its chosen row. -/
theorem panel_predict_contract (old new : List ι) (coefs : K ⊕ J → ℝ)
    (pos : J → K) (draws : J → Fin (originalOrderUniqueIds new).length → D → ℝ)
    (newX : Matrix (Fin new.length) K ℝ)
    {newB : Matrix (Fin new.length) O' ℝ} {fn : Fin new.length → O'} (hfn : Indicates newB fn)
    (oldX : Matrix (Fin old.length) K ℝ) (oldB : Matrix (Fin old.length) (Fin nObs) ℝ)
    (y : Fin old.length → ℝ) {l : Fin new.length → ℝ}
    (hl : panelPredictLong old new coefs pos draws newX newB oldX oldB y = .ok l)
    {choice : Fin new.length → ℝ} {c : O' → Fin new.length} (hc : OneChoice fn choice c) :
    panelPredict old new coefs pos draws newX newB none oldX oldB y false = .error .valueError ∧
    panelPredict old new coefs pos draws newX newB none oldX oldB y true = .ok (.long l) ∧
    panelPredict old new coefs pos draws newX newB (some (Matrix.of fun r o => newB r o * choice r))
      oldX oldB y true = .ok (.both (fun o => l (c o)) l) ∧
    panelPredict old new coefs pos draws newX newB (some (Matrix.of fun r o => newB r o * choice r))
      oldX oldB y false = .ok (.chosen fun o => l (c o)) := by
  have hch : (Matrix.of fun r o => newB r o * choice r)ᵀ *ᵥ l = fun o => l (c o) := by
    funext o
    simp only [mulVec, dotProduct, transpose_apply, Matrix.of_apply, hfn _ _]
    rw [Finset.sum_eq_single (c o)]
    · rw [if_pos (hc.mem o), hc.one]; ring
    · intro r _ hr
      by_cases h : fn r = o
      · rw [hc.zero r (by rw [h]; exact hr)]; ring
      · rw [if_neg h]; ring
    · intro h; exact absurd (Finset.mem_univ _) h
  refine ⟨?_, ?_, ?_, ?_⟩ <;> simp [panelPredict, hl, bind, Except.bind, hch]

/-! ## A concrete case -/

section Example

/-- Two individuals, one observation of two rows each, in the order 1, 2. -/
def exOld : List ℕ := [1, 1, 2, 2]
/-- The same individuals in the order 2, 1. -/
def exNew : List ℕ := [2, 2, 1, 1]
/-- Observation of each of the four rows. -/
def exPanelObs : Fin 4 → Fin 2 := ![0, 0, 1, 1]
/-- The mapping matrix. -/
def exPanelB : Matrix (Fin 4) (Fin 2) ℝ := Matrix.of fun r o => if exPanelObs r = o then 1 else 0
/-- One attribute: 1 for the first alternative, 0 for the second. -/
def exPanelX : Matrix (Fin 4) (Fin 1) ℝ := Matrix.of fun r _ => ![1, 0, 1, 0] r
/-- The first alternative is chosen. -/
def exPanelY : Fin 4 → ℝ := ![1, 0, 1, 0]
/-- Individual 1 has draws 0 and 1, individual 2 has draws 0 and 0. -/
def exDraw : Fin 1 → ℕ → Fin 2 → ℝ := fun _ i d => if i = 1 ∧ d = 1 then 1 else 0

theorem exPanelB_indicates : Indicates exPanelB exPanelObs := fun _ _ => rfl

theorem exPanel_old : PanelData exPanelObs exOld.get := by
  intro r s; revert r s; unfold exPanelObs exOld; decide

theorem exPanel_new : PanelData exPanelObs exNew.get := by
  intro r s; revert r s; unfold exPanelObs exNew; decide

theorem exPanel_zeroOne : ZeroOne exPanelY := by
  intro r; fin_cases r <;> simp [exPanelY]

/-- The hypotheses of `panel_predict_partial` are met by a table and itself. -/
example : SameOrder exOld exOld ∧ PanelData exPanelObs exOld.get ∧ ZeroOne exPanelY ∧
    Indicates exPanelB exPanelObs :=
  ⟨fun _ _ _ _ _ _ => Iff.rfl, exPanel_old, exPanel_zeroOne, exPanelB_indicates⟩

/-- The orders differ. -/
example : ¬ SameOrder exOld exNew := by
  intro h
  have := (h 1 2 (by decide) (by decide) (by decide) (by decide)).1 (by decide)
  revert this; decide

theorem exPanel_prob {c : ℝ} (h0 : 0 ≤ c) (h1 : c ≤ 700) (r : Fin 4) (hr : r = 0 ∨ r = 2)
    {h : Fin 4 → ℝ} (hh : ∀ s, exPanelObs s = exPanelObs r → h s = exPanelX s 0 * c) :
    clippedLogit exPanelObs h r = Real.exp c / (Real.exp c + 1) := by
  have e1 : clip700 c = c := by
    simp only [clip700]; rw [min_eq_left h1, max_eq_right (by linarith)]
  have e0 : clip700 0 = 0 := by simp [clip700]
  rcases hr with rfl | rfl
  · have hs : rowsOf exPanelObs (exPanelObs 0) = {0, 1} := by decide
    simp only [clippedLogit, logitProb, hs]
    rw [Finset.sum_pair (by decide), hh 0 rfl, hh 1 rfl]
    simp [exPanelX, e0, e1]
  · have hs : rowsOf exPanelObs (exPanelObs 2) = {2, 3} := by decide
    simp only [clippedLogit, logitProb, hs]
    rw [Finset.sum_pair (by decide), hh 2 rfl, hh 3 rfl]
    simp [exPanelX, e0, e1]

theorem exSequence {ids : Fin 4 → ℕ} (h0 : ids 0 = 1) (h2 : ids 2 = 2) (p : Fin 4 → ℝ) :
    sequenceProb ids exPanelY p 1 = p 0 := by
  unfold sequenceProb
  rw [Finset.prod_filter, Fin.prod_univ_four]
  simp [h0, h2, exPanelY]

/-- **C47** is false of the code when the tables list the individuals in different orders: the
individual's draws are weighted with the history evaluated at another individual's draws. -/
theorem panel_predict_wrong_order :
    ∃ l, panelPredictLong exOld exNew (Sum.elim (fun _ : Fin 1 => 0) fun _ : Fin 1 => 1) (fun _ => 0)
        (fun j c d => exDraw j ((originalOrderUniqueIds exNew).get c) d)
        exPanelX exPanelB exPanelX exPanelB exPanelY = .ok l ∧
      exNew.get (2 : Fin 4) ∈ exOld ∧
      l (2 : Fin 4) ≠ weightedAverage
        (historyProb exOld.get exPanelObs exPanelX exPanelY (fun _ : Fin 1 => 0) (fun _ : Fin 1 => 1)
          (fun _ => 0) exDraw (exNew.get (2 : Fin 4)) (exNew.get (2 : Fin 4)))
        (newRowProb exNew.get exPanelObs exPanelX (fun _ : Fin 1 => 0) (fun _ : Fin 1 => 1)
          (fun _ => 0) exDraw (2 : Fin 4)) := by
  obtain ⟨l, h1, h2⟩ := panel_predict_exact exOld exNew (fun _ : Fin 1 => 0) (fun _ : Fin 1 => 1)
    (fun _ => 0) exDraw exPanelX exPanelB_indicates exPanelX exPanelB_indicates exPanel_old
    exPanel_zeroOne
  refine ⟨l, h1, by decide, ?_⟩
  rw [h2 (2 : Fin 4), if_pos (by decide)]
  have hd : donor exOld exNew (exNew.get (2 : Fin 4)) = 2 := by decide
  have hi : exNew.get (2 : Fin 4) = 1 := by decide
  rw [hd, hi]
  have hdraw : ∀ i (d : Fin 2), 0 ≤ exDraw 0 i d ∧ exDraw 0 i d ≤ 700 := by
    intro i d; simp only [exDraw]; split_ifs <;> norm_num
  have hcoef : ∀ i d, randomCoef (fun _ : Fin 1 => (0 : ℝ)) (fun _ : Fin 1 => (1 : ℝ)) (fun _ => 0)
      exDraw i d 0 = exDraw 0 i d := by
    intro i d; simp [randomCoef]
  have hH : ∀ who d, historyProb exOld.get exPanelObs exPanelX exPanelY (fun _ : Fin 1 => 0)
      (fun _ : Fin 1 => 1) (fun _ => 0) exDraw who 1 d =
      Real.exp (exDraw 0 who d) / (Real.exp (exDraw 0 who d) + 1) := by
    intro who d
    unfold historyProb
    refine (exSequence (ids := exOld.get) rfl rfl _).trans ?_
    refine exPanel_prob (hdraw who d).1 (hdraw who d).2 0 (Or.inl rfl) fun s _ => ?_
    simp [hcoef]
  have hN : ∀ d, newRowProb exNew.get exPanelObs exPanelX (fun _ : Fin 1 => 0) (fun _ : Fin 1 => 1)
      (fun _ => 0) exDraw (2 : Fin 4) d = Real.exp (exDraw 0 1 d) / (Real.exp (exDraw 0 1 d) + 1) := by
    intro d
    unfold newRowProb
    refine exPanel_prob (hdraw 1 d).1 (hdraw 1 d).2 2 (Or.inr rfl) fun s hs => ?_
    have : exNew.get s = 1 := exPanel_new s (2 : Fin 4) hs
    simp [hcoef, this]
  simp only [weightedAverage, hH, hN, Fin.sum_univ_two]
  have d10 : exDraw 0 1 0 = 0 := by simp [exDraw]
  have d11 : exDraw 0 1 1 = 1 := by simp [exDraw]
  have d20 : exDraw 0 2 0 = 0 := by simp [exDraw]
  have d21 : exDraw 0 2 1 = 0 := by simp [exDraw]
  rw [d10, d11, d20, d21, Real.exp_zero]
  set q := Real.exp 1 / (Real.exp 1 + 1) with hq
  have hq1 : 1 / 2 < q := by
    have := Real.one_lt_exp_iff.2 one_pos
    rw [hq, div_lt_div_iff₀ two_pos (by linarith)]; linarith
  intro e
  have hpos : (1 / (1 + 1) + q : ℝ) ≠ 0 := by positivity
  rw [div_eq_div_iff (by norm_num) hpos] at e
  have : (q - 1 / 2) ^ 2 = 0 := by nlinarith
  have := pow_eq_zero_iff (two_ne_zero) |>.1 this
  linarith

end Example

end Pylogit
