import Verif.Model.MixedFit
import Verif.Spec.MixedFit
import Verif.Props.Random
import Verif.Props.FitLogLik
import Verif.Props.ConstructMore

/-!
# The log-likelihood a fit of the mixed logit model maximises (C107)
-/

open Matrix

namespace Pylogit

open Spec

noncomputable section

/-! ## Helper lemmas -/

private lemma columnPositions_ok {n : ℕ} {pos : List ℕ} (h : ∀ p ∈ pos, p < n) :
    ∃ l : List (Fin n), columnPositions n pos = .ok l ∧ l.map Fin.val = pos := by
  induction pos with
  | nil => exact ⟨[], rfl, rfl⟩
  | cons p pos ih =>
    obtain ⟨l, h1, h2⟩ := ih fun q hq => h q (List.mem_cons_of_mem _ hq)
    have hp := h p List.mem_cons_self
    refine ⟨⟨p, hp⟩ :: l, ?_, by simp [h2]⟩
    unfold columnPositions at h1 ⊢
    rw [List.mapM_cons, dif_pos hp, h1]
    rfl

private lemma index_cols {df : Frame ℝ} {altCol : String} {ds : List (ColDesc ℝ)} {beta : List ℝ}
    {cols : List (Fin df.numRows → ℝ)} (hc : cols = ds.map fun d => d.value df altCol)
    (hl : beta.length = ds.length) (r : Fin df.numRows) :
    ∑ k : Fin cols.length, cols[k] r * beta.getD k 0 = rowIndex df altCol ds beta r := by
  subst hc
  rw [rowIndex]
  induction ds generalizing beta with
  | nil => exact Fin.sum_univ_zero _
  | cons d ds ih =>
    cases beta with
    | nil => simp at hl
    | cons b beta =>
      have := ih (beta := beta) (by simpa using hl)
      simp only [List.zip_cons_cons, List.map_cons, List.sum_cons, ← this]
      exact Fin.sum_univ_succ (n := (ds.map fun d => d.value df altCol).length) fun k =>
        ((d :: ds).map fun d : ColDesc ℝ => d.value df altCol)[k.val] r * (b :: beta).getD k.val 0

/-! ## C107: mixed logit -/

/-- **C107** (mixed logit). Build a mixed logit model on a table, with at least one mixing variable and choices marked
by 0 and 1.  At a vector with one mean per described column followed by one standard deviation per mixing variable,
a fit computes the simulated log-likelihood of the table, minus the ridge penalty: over the people in the table, the
logarithm of the average over the draws of the product of the (clipped) logit probabilities of the rows the person
chose, for utilities with the person's coefficients.  The `j`-th mixing variable varies the coefficient of the first
column with its name, by the standard deviation times the person's entry in the `j`-th array of draws that the generator
returns from its present state or, with a seed, from the state of the seed.  If the observation ids of the table are not
in ascending order, the fit raises `ValueError`. -/
theorem mixed_fit_maximises_table_logLik (g : Rng) {env : Env ℝ} {df : Frame ℝ} {a : ModelArgs ℝ}
    {m : ChoiceModel ℝ} (hm : createChoiceModel env "Mixed Logit" df a = .ok m)
    {mixCol : String} (hmix : a.mixingIdCol = some mixCol) (hcol : mixCol ∈ m.data.columns)
    {vars : List String} (hvars : a.mixingVars = some vars) (hne : vars ≠ [])
    {s : List (String × SpecVal ℝ)} (hspec : m.args.specification = encodeAll s)
    (hkeys : (s.map Prod.fst).Nodup) (hnm : ∀ ns, m.args.names = some ns → (ns.map Prod.fst).Nodup)
    {alts : List ℝ} (ha : AltsOf m.data m.args.altIdCol alts) (hrows : 0 < m.data.numRows)
    (hy : ∀ r, m.data.val m.args.choiceCol r = 0 ∨ m.data.val m.args.choiceCol r = 1)
    {col : Fin vars.length → ℕ}
    (hname : ∀ j, m.indVarNames[col j]? = some (.str vars[j]) ∧
      ∀ i < col j, m.indVarNames[i]? ≠ some (.str vars[j]))
    {d : ℕ} (hd : 0 < d) {seed : Option IntArg} {st s₀ : g.State}
    (hseed : seed = none ∧ s₀ = st ∨ ∃ k : ℤ, 0 < k ∧ seed = some (.int k) ∧ g.seed k = .ok s₀)
    {mean : List ℝ} (hmean : mean.length = (specColumns alts s).length) (sd : Fin vars.length → ℝ)
    (ridge : Option ℝ) :
    fitMixedLogLik g m (.int d) seed ridge (mean ++ List.ofFn sd) st =
      if (m.data.colList m.args.obsIdCol).Pairwise (· ≤ ·) then
        .ok (tableSimLogLik m.data m.args.obsIdCol mixCol m.args.choiceCol
            (firstAppearance (m.data.colList mixCol)) (fun t : Fin d =>
              mixedUtility m.data m.args.altIdCol mixCol (specColumns alts s) mean sd col fun j who =>
                personDraw g (firstAppearance (m.data.colList mixCol)) d s₀ j who t)
          - ridge.getD 0 * ((mean ++ List.ofFn sd).map fun x => x ^ 2).sum)
      else .error .valueError := by
  have hdm := (built_own hm).1.design
  rw [hspec] at hdm
  have hcols := design_entries ha hdm
  have hnames : m.indVarNames.length = m.design.length :=
    one_name_per_column (by simpa [encodeAll, Function.comp_def] using hkeys) hnm hdm
  have hdl : m.design.length = mean.length := by
    rw [show m.design = _ from hcols, List.length_map, hmean, specColumns]
  obtain ⟨pos, hpos, hpl, hpv⟩ := model_mixing_positions hm hvars
  have hposj : ∀ j (h : j < vars.length), pos[j]? = some (col ⟨j, h⟩) := by
    intro j h
    have h' : j < pos.length := hpl ▸ h
    obtain ⟨q1, q2⟩ := hpv j h h'
    obtain ⟨q3, q4⟩ := hname ⟨j, h⟩
    rw [List.getElem?_eq_getElem h', Option.some.injEq]
    rcases lt_trichotomy pos[j] (col ⟨j, h⟩) with e | e | e
    · exact absurd q1 (q4 _ e)
    · exact e
    · exact absurd q3 (q2 _ e)
  have hlt : ∀ p ∈ pos, p < m.design.length := by
    intro p hp
    obtain ⟨i, hi, rfl⟩ := List.mem_iff_getElem.1 hp
    obtain ⟨q1, -⟩ := hpv i (hpl ▸ hi) hi
    rw [← hnames]
    exact (List.getElem?_eq_some_iff.1 q1).1
  obtain ⟨posF, hF, hFv⟩ := columnPositions_ok hlt
  have hFl : posF.length = vars.length := by rw [← hpl, ← hFv, List.length_map]
  have hmixm : mixingColumn m = .ok mixCol := by
    have hk : modelTypeToClass.lookup "Mixed Logit" = some .mixed := by decide
    have hm' := hm
    simp only [createChoiceModel, hk] at hm'
    have := ((classInit_ok hm').2.2.2.2.2.2.2.2.2.2.2.2 rfl).2
    simp [mixingColumn, this, hmix, hcol]
  have hne' : (originalOrderUniqueIds (m.data.colList mixCol)).length ≠ 0 := by
    rw [← Nat.pos_iff_ne_zero]
    refine List.length_pos_of_mem (a := m.data.val mixCol ⟨0, hrows⟩) ?_
    rw [mem_originalOrder]
    exact mem_colList.2 ⟨_, rfl⟩
  have hdraws : normalDraws g (originalOrderUniqueIds (m.data.colList mixCol)).length (.int d) pos.length seed st =
      .ok ⟨d, (List.range pos.length).map (fun i =>
        normalStream g (originalOrderUniqueIds (m.data.colList mixCol)).length d i s₀),
        (normalsLoop g (originalOrderUniqueIds (m.data.colList mixCol)).length d pos.length s₀).2⟩ :=
    (normal_draws_iff g ..).2 ⟨Nat.pos_of_ne_zero hne', hd, by
      rw [hpl]; exact List.length_pos_iff.2 hne, rfl, s₀, hseed, rfl, rfl⟩
  have hpo : mixingPosOf m = .ok pos := by simp [mixingPosOf, hpos]
  have hel : posF.length = ((List.range pos.length).map (fun i =>
      normalStream g (originalOrderUniqueIds (m.data.colList mixCol)).length d i s₀)).length := by
    simp [hFl, hpl]
  have hne2 : (List.range pos.length).map (fun i =>
      normalStream g (originalOrderUniqueIds (m.data.colList mixCol)).length d i s₀) ≠ [] := by
    rw [← List.length_pos_iff, ← hel, hFl]
    exact List.length_pos_iff.2 hne
  simp only [fitMixedLogLik, hmixm, hpo, hdraws, hF, bind, Except.bind]
  rw [(createExpandedDesign_contract _ _ _ _).2.2 hel hne2]
  dsimp only
  by_cases hc : (m.data.colList m.args.obsIdCol).Pairwise (· ≤ ·)
  · rw [ensureContiguity_ok.2 hc, if_pos hc]
    dsimp only
    rw [if_neg (by simp [hdl, hFl]), dif_pos hrows]
    refine congrArg Except.ok ?_
    have : Nonempty (Fin m.data.numRows) := ⟨⟨0, hrows⟩⟩
    obtain ⟨fo, hB, -⟩ := m.data.rowsToObs_indicates m.args.obsIdCol
    obtain ⟨f, hC, hiff⟩ := m.data.rowsToObs_indicates mixCol
    have hex : ∀ i, ∃ r, f r = i := by
      intro i
      have : (originalOrderUniqueIds (m.data.colList mixCol)).get i ∈ m.data.colList mixCol :=
        mem_originalOrder.1 (List.get_mem _ _)
      obtain ⟨r, hr⟩ := mem_colList.1 this
      exact ⟨r, (hiff r i).2 hr⟩
    choose first hfirst using hex
    rw [mixed_loglik_formula hB hC hy (by simp [ObsWeights]) (by simp [NonnegWeights]) hfirst]
    rw [← unique_ids_eq_firstAppearance]
    congr 1
    · unfold tableSimLogLik
      have hl : ∀ F : ℝ → ℝ, ((originalOrderUniqueIds (m.data.colList mixCol)).map F).sum =
          ∑ i, F ((originalOrderUniqueIds (m.data.colList mixCol)).get i) := by
        intro F
        rw [← List.sum_ofFn]
        congr 1
        conv_lhs => rw [← List.ofFn_get (originalOrderUniqueIds (m.data.colList mixCol)), List.map_ofFn]
        rfl
      rw [hl]
      refine Finset.sum_congr rfl fun i _ => ?_
      simp only [Option.getD_none, one_mul]
      congr 2
      funext t
      unfold sequenceProb
      refine Finset.prod_congr ?_ fun r _ => ?_
      · ext r
        simp [hiff]
      · unfold kernelProbs
        rw [frame_longProbs]
        refine congrFun (congrArg (clippedLogit _) ?_) r
        funext r
        rw [expanded_utility hC, mixedUtility, 
          ← index_cols (cols := m.design) (ds := specColumns alts s) hcols (by simp [personCoefs, hmean])]
        refine Finset.sum_congr rfl fun k _ => ?_
        rw [Matrix.of_apply]
        congr 1
        have hk : k.val < mean.length := hdl ▸ k.isLt
        have hlen : ∀ z, (personCoefs mean sd col z).length = mean.length := fun z => by simp [personCoefs]
        rw [List.getD_eq_getElem?_getD, List.getElem?_eq_getElem (by rw [hlen]; exact hk)]
        simp only [personCoefs, List.getElem_ofFn, Option.getD_some, randomCoef]
        congr 1
        · rw [List.getD_eq_getElem?_getD, List.getElem?_append_left hk]
          simp [hk]
        · rw [Finset.sum_filter, Finset.sum_filter, ← (finCongr hFl).sum_comp]
          refine Finset.sum_congr rfl fun j _ => ?_
          have hj : j.val < vars.length := hFl ▸ j.isLt
          have hv : (posF.get j).val = col (finCongr hFl j) := by
            have h1 := hposj j.val hj
            rw [← hFv] at h1
            simp at h1
            exact h1
          refine if_congr (by rw [Fin.ext_iff, hv]) ?_ rfl
          congr 1
          · simp [hdl, hj]
            rfl
          · have hr : (originalOrderUniqueIds (m.data.colList mixCol)).idxOf (m.data.val mixCol r) = (f r).val := by
              rw [(hiff r (f r)).1 rfl]
              exact (originalOrder_nodup _).idxOf_getElem _ _
            unfold personDraw
            rw [dif_pos (by rw [hr]; exact (f r).isLt)]
            simp [hr]
    · rw [Fintype.sum_sum_type]
      simp only [Sum.elim_inl, Sum.elim_inr, List.map_append, List.sum_append, List.map_ofFn, List.sum_ofFn]
      refine congrArg₂ (· * ·) rfl (congrArg₂ (· + ·) ?_ ?_)
      · conv_rhs => rw [← List.ofFn_get mean, List.map_ofFn, List.sum_ofFn]
        rw [← (finCongr hdl).sum_comp]
        refine Finset.sum_congr rfl fun k _ => ?_
        have hk : k.val < mean.length := hdl ▸ k.isLt
        rw [List.getD_eq_getElem?_getD, List.getElem?_append_left hk]
        simp [hk]
      · rw [← (finCongr hFl).sum_comp]
        refine Finset.sum_congr rfl fun j _ => ?_
        have hj : j.val < vars.length := hFl ▸ j.isLt
        simp [hdl, hj]
        rfl
  · rw [if_neg hc]
    have : ensureContiguity (m.data.colList m.args.obsIdCol) = .error .valueError := by
      have hn := mt ensureContiguity_ok.1 hc
      unfold ensureContiguity at hn ⊢
      split_ifs at hn ⊢
      · exact absurd rfl hn
      · rfl
    rw [this]

/-- **C107** (mixed logit, what a fit needs). The objective can be evaluated only if the model was given a mixing id
whose column is in the table, and mixing variables; the ids ascend; and the vector has one mean per column of the
design and one standard deviation per mixing variable. -/
theorem mixed_fit_needs (g : Rng) {m : ChoiceModel ℝ} {numDraws : IntArg} {seed : Option IntArg} {ridge : Option ℝ}
    {x : List ℝ} {st : g.State} {v : ℝ} (h : fitMixedLogLik g m numDraws seed ridge x st = .ok v) :
    (∃ c, m.args.mixingIdCol = some c ∧ c ∈ m.data.columns) ∧
    (∃ pos, m.mixingPos = some pos ∧ x.length = m.design.length + pos.length) ∧
    (m.data.colList m.args.obsIdCol).Pairwise (· ≤ ·) ∧ 0 < m.data.numRows := by
  unfold fitMixedLogLik at h
  simp only [bind, Except.bind] at h
  split at h
  · cases h
  rename_i c hcol
  split at h
  · cases h
  rename_i pos hpos
  split at h
  · cases h
  split at h
  · cases h
  rename_i posF hF
  split at h
  · cases h
  split at h
  · cases h
  rename_i u hu
  split_ifs at h with hl hr
  have hlt : ∀ (l : List ℕ) (q : List (Fin m.design.length)), columnPositions m.design.length l = .ok q →
      q.length = l.length := by
    intro l
    induction l with
    | nil => intro q hq; simp_all [columnPositions, pure, Except.pure]
    | cons a l ih =>
      intro q hq
      rw [columnPositions, List.mapM_cons] at hq
      simp only [bind, Except.bind, pure, Except.pure] at hq
      split at hq
      · cases hq
      split at hq
      · cases hq
      rename_i q' hq'
      cases hq
      simp [ih q' hq']
  refine ⟨?_, ⟨pos, ?_, ?_⟩, ensureContiguity_ok.1 hu, hr⟩
  · unfold mixingColumn at hcol
    split at hcol
    · cases hcol
    rename_i c' hc'
    split_ifs at hcol with hin
    exact ⟨c', hc', hin⟩
  · unfold mixingPosOf at hpos
    split at hpos
    · cases hpos
    rename_i l hl'
    cases hpos
    exact hl'
  · rw [← hlt _ _ hF]
    exact not_not.1 hl

end

end Pylogit
