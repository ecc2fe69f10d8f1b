import Verif.Spec.WholeFitMixed
import Verif.Props.WholeFitNested
import Verif.Props.MixedFit
import Verif.Props.NullModel
import Verif.Props.Reorder

/-!
# What a fit of the mixed logit model reports about its table (C111)
-/

open Matrix

namespace Pylogit

open Spec

noncomputable section

/-! ## Helper lemmas: the estimator -/

section Est

variable {R O M D P : Type} [Fintype R] [DecidableEq R] [Nonempty R] [Fintype O] [DecidableEq O] [Fintype M]
  [DecidableEq M] [Fintype D] [Fintype P] [DecidableEq P]

theorem mixed_bhhh_below {C : Matrix R M ℝ} {g : R → M} (hC : Indicates C g) (θ : P → ℝ) (X : R → D → P → ℝ)
    (B : Matrix R O ℝ) (choice : R → ℝ) (ridge : Option ℝ) {weights : Option (R → ℝ)} (hw0 : NonnegWeights weights) :
    SymmBelow (-(2 * ridge.getD 0)) (mixedBHHH θ X B C choice ridge weights) := by
  obtain ⟨h1, h2⟩ := mixed_bhhh_nsd hC θ X B choice hw0
  cases ridge with
  | none =>
    refine ⟨h1, fun x => (h2 x).trans ?_⟩
    simp
  | some ρ =>
    rw [mixed_bhhh_ridge]
    refine ⟨?_, fun x => ?_⟩
    · rw [Matrix.transpose_add, h1, Matrix.transpose_smul, Matrix.transpose_one]
    · have := h2 x
      rw [Matrix.add_mulVec, dotProduct_add, Matrix.smul_mulVec, dotProduct_smul, Matrix.one_mulVec]
      simp only [smul_eq_mul, Option.getD_some]
      linarith

end Est

/-! ## Helper lemmas: the table -/

section Table

variable {m : ChoiceModel ℝ}

theorem mixed_facts (hrows : 0 < m.data.numRows) (X : DrawnDesign m.data m.design.length) (hd : 0 < X.numDraws)
    {chosen : ℝ → Fin m.data.numRows} (hc : OneChoicePerObs m.data m.args.obsIdCol m.args.choiceCol chosen)
    (ids : List ℝ) (ridge : Option ℝ)
    {U : (Fin (m.design.length + X.numMixed) → ℝ) → Fin X.numDraws → Fin m.data.numRows → ℝ}
    (hU : ∀ θ t r, ∑ q, X.values r t q * (θ ∘ twoParts m.design.length X.numMixed) q = U θ t r) :
    let D := tableOf m ids
    let obj := mixedObject m hrows X ridge
    let people := firstAppearance (m.data.colList X.mixCol)
    (∀ con (θ : Fin (m.design.length + X.numMixed) → ℝ),
      (obj.est con).logLik θ = D.simLogLik X.mixCol people ridge U θ) ∧
    (D.simLogLik X.mixCol people ridge U (fun _ => 0) = D.equalShares) ∧
    (D.Panel X.mixCol → ∀ con (θ : Fin (m.design.length + X.numMixed) → ℝ), Moderate (U θ) →
      HasPartials (D.simLogLik X.mixCol people ridge U) ((obj.est con).gradient θ) θ) ∧
    (∀ con (θ : Fin (m.design.length + X.numMixed) → ℝ),
      SymmBelow (min (-(2 * ridge.getD 0)) 1) ((obj.est con).hessian θ)) ∧
    (D.Panel X.mixCol → ∀ θ : Fin (m.design.length + X.numMixed) → ℝ, Moderate (U θ) →
      ∃ S : ℝ → Fin (m.design.length + X.numMixed) → ℝ,
      (∀ who ∈ people, HasPartials (fun θ => D.personLog X.mixCol (U θ) who) (S who) θ) ∧
      ∀ (con : Option (List (Fin (m.design.length + X.numMixed)))) (i j : Fin (m.design.length + X.numMixed)),
        (obj.est con).hessian θ i j = if i ∈ con.getD [] ∨ j ∈ con.getD [] then (if i = j then -1 else 0)
        else -(people.map fun who => S who i * S who j).sum + 2 * ridge.getD 0 * (if i = j then 1 else 0)) := by
  intro D obj people
  have : Nonempty (Fin m.data.numRows) := ⟨⟨0, hrows⟩⟩
  have : Nonempty (Fin X.numDraws) := ⟨⟨0, hd⟩⟩
  obtain ⟨f, c, hB, hone, hiff⟩ := table_choice hc
  obtain ⟨h, hC, hiff'⟩ := m.data.rowsToObs_indicates X.mixCol
  have hex : ∀ i, ∃ r, h r = i := by
    intro i
    have : (originalOrderUniqueIds (m.data.colList X.mixCol)).get i ∈ m.data.colList X.mixCol :=
      mem_originalOrder.1 (List.get_mem _ _)
    obtain ⟨r, hr⟩ := mem_colList.1 this
    exact ⟨r, (hiff' r i).2 hr⟩
  choose first hfirst using hex
  have hw1 : ObsWeights h (none : Option (Fin m.data.numRows → ℝ)) := fun w e => by cases e
  have hw2 : NonnegWeights (none : Option (Fin m.data.numRows → ℝ)) := fun w e => by cases e
  have hpeople : people = originalOrderUniqueIds (m.data.colList X.mixCol) :=
    (unique_ids_eq_firstAppearance _).symm
  have hl : ∀ F : ℝ → ℝ, (people.map F).sum =
      ∑ i, F ((originalOrderUniqueIds (m.data.colList X.mixCol)).get i) := by
    intro F
    rw [hpeople, ← List.sum_ofFn]
    congr 1
    conv_lhs => rw [← List.ofFn_get (originalOrderUniqueIds (m.data.colList X.mixCol)), List.map_ofFn]
    rfl
  have hper : ∀ (θ : Fin (m.design.length + X.numMixed) → ℝ) i,
      D.personLog X.mixCol (U θ) ((originalOrderUniqueIds (m.data.colList X.mixCol)).get i) =
      simulatedChoiceLog f h (m.data.val m.args.choiceCol) X.values i
        (θ ∘ twoParts m.design.length X.numMixed) := by
    intro θ i
    unfold LongData.personLog simulatedChoiceLog
    refine congrArg Real.log (congrArg average (funext fun t => ?_))
    have key : (∏ r with m.data.val X.mixCol r = (originalOrderUniqueIds (m.data.colList X.mixCol)).get i ∧
          m.data.val m.args.choiceCol r = 1, clippedLogit (m.data.val m.args.obsIdCol) (U θ t) r) =
        sequenceProb h (m.data.val m.args.choiceCol)
          (clippedLogit f fun r => ∑ q, X.values r t q * (θ ∘ twoParts m.design.length X.numMixed) q) i := by
      unfold sequenceProb
      refine Finset.prod_congr ?_ fun r _ => ?_
      · ext r
        simp only [Finset.mem_filter, Finset.mem_univ, true_and, hiff']
      · rw [← clipped_same hiff]
        exact congrFun (congrArg (clippedLogit f) (funext fun r => (hU θ t r).symm)) r
    exact key
  have hLL : ∀ θ : Fin (m.design.length + X.numMixed) → ℝ, D.simLogLik X.mixCol people ridge U θ =
      simulatedLogLik f h first (m.data.val m.args.choiceCol) X.values none ridge
        (θ ∘ twoParts m.design.length X.numMixed) := by
    intro θ
    unfold LongData.simLogLik simulatedLogLik
    rw [hl]
    refine congrArg₂ (· - ·) ?_ ?_
    · refine Finset.sum_congr rfl fun i _ => ?_
      rw [hper]
      simp [simulatedChoiceLog]
    · exact congrArg _ ((twoParts m.design.length X.numMixed).sum_comp fun k => θ k ^ 2).symm
  have hpanel : D.Panel X.mixCol → PanelData f h := by
    intro hp r s hrs
    rw [hiff', ← (hiff' s (h s)).1 rfl]
    exact hp r s (((hiff r (f s)).1 hrs).trans ((hiff s (f s)).1 rfl).symm)
  have hmod : ∀ θ : Fin (m.design.length + X.numMixed) → ℝ, Moderate (U θ) →
      ∀ r t, |∑ q, X.values r t q * (θ ∘ twoParts m.design.length X.numMixed) q| < 700 := by
    intro θ hθ r t
    rw [hU]
    exact hθ t r
  refine ⟨fun con θ => ?_, ?_, fun hp con θ hθ => ?_, fun con θ => ?_, fun hp θ hθ => ?_⟩
  · rw [hLL]
    exact mixedEstimator_loglik hB hC hone hw1 hw2 hfirst _ X.values ridge none
  · have h1 := mixed_null hB hC hone hw1 hw2 hfirst X.values ridge none (fun f x h => ⟨x, 0⟩) fun _ => 0
    have h2 := mixedEstimator_loglik hB hC hone hw1 hw2 hfirst (fun _ => (0 : ℝ)) X.values ridge none
    have h3 : simulatedLogLik f h first (m.data.val m.args.choiceCol) X.values none ridge (fun _ => 0) =
      equalSharesLogLik f c none := h2.symm.trans h1
    rw [hLL]
    refine h3.trans ?_
    simp only [equalSharesLogLik, Option.getD_none, one_mul]
    refine Eq.trans ?_ (sum_choice hone fun r =>
      Real.log (1 / ((rowsOf (m.data.val m.args.obsIdCol) (m.data.val m.args.obsIdCol r)).card : ℝ))).symm
    refine Finset.sum_congr rfl fun o _ => ?_
    have := card_same hiff (c o)
    rw [hone.mem] at this
    rw [this]
  · rw [show D.simLogLik X.mixCol people ridge U = _ from funext hLL]
    have h1 := partials_of_objective (mixed_objective hB hC (hpanel hp) hone hw1 hw2 hfirst
      (θ ∘ twoParts m.design.length X.numMixed) X.values ridge none (hmod θ hθ)) rfl
    exact partials_reindex (twoParts m.design.length X.numMixed) (x := θ) h1
  · exact SymmBelow.reindex (mask_below (mixed_bhhh_below hC _ _ _ _ ridge (nonnegWeights_est hw2)) _) _
  · have h1 := mixed_bhhh hB hC (hpanel hp) hone (obsWeights_est hw1) (nonnegWeights_est hw2) hfirst
      (θ ∘ twoParts m.design.length X.numMixed) X.values ridge (hmod θ hθ)
    obtain ⟨S, hS, hH⟩ := h1
    refine ⟨fun who i => if hw : people.idxOf who < people.length then
      S ⟨people.idxOf who, hpeople ▸ hw⟩ ((twoParts m.design.length X.numMixed).symm i) else 0, ?_, ?_⟩
    · intro who hwho
      have hw : people.idxOf who < people.length := List.idxOf_lt_length_iff.2 hwho
      have hg : (originalOrderUniqueIds (m.data.colList X.mixCol)).get ⟨people.idxOf who, hpeople ▸ hw⟩ = who := by
        simp [← hpeople]
      simp only [hw, dif_pos]
      have h2 := partials_reindex (twoParts m.design.length X.numMixed) (x := θ) (hS ⟨people.idxOf who, hpeople ▸ hw⟩)
      refine fun i => ((h2 i).congr_of_eventuallyEq (Filter.Eventually.of_forall fun y => ?_))
      beta_reduce
      rw [← hper, hg]
    · intro con i j
      have h2 := mask_apply (mixedBHHH (θ ∘ twoParts m.design.length X.numMixed) X.values
        (m.data.rowsToObs m.args.obsIdCol) (m.data.rowsToObs X.mixCol) (m.data.val m.args.choiceCol) ridge
        (estWeights none)) (con.map fun l => l.map (twoParts m.design.length X.numMixed).symm)
        ((twoParts m.design.length X.numMixed).symm i) ((twoParts m.design.length X.numMixed).symm j)
      refine h2.trans ?_
      have hmem : ∀ i, (twoParts m.design.length X.numMixed).symm i ∈
          (con.map fun l => l.map (twoParts m.design.length X.numMixed).symm).getD [] ↔ i ∈ con.getD [] := by
        intro i
        cases con <;> simp
      simp only [hmem, EmbeddingLike.apply_eq_iff_eq]
      refine if_congr Iff.rfl rfl ((hH _ _).trans ?_)
      simp only [EmbeddingLike.apply_eq_iff_eq]
      refine congrArg₂ (· + ·) (congrArg Neg.neg ?_) rfl
      rw [hl]
      refine Finset.sum_congr rfl fun u _ => ?_
      have hidx : people.idxOf ((originalOrderUniqueIds (m.data.colList X.mixCol)).get u) = u.val := by
        rw [hpeople]
        exact (originalOrder_nodup _).idxOf_getElem _ _
      have hw : people.idxOf ((originalOrderUniqueIds (m.data.colList X.mixCol)).get u) < people.length := by
        rw [hidx, hpeople]
        exact u.2
      simp only [hw, dif_pos]
      have e : ∀ hlt, (⟨people.idxOf ((originalOrderUniqueIds (m.data.colList X.mixCol)).get u), hlt⟩ :
          Fin (originalOrderUniqueIds (m.data.colList X.mixCol)).length) = u := fun _ => Fin.ext hidx
      rw [e]
      show (((none : Option (Fin m.data.numRows → ℝ)).getD fun _ => 1) (first u)) * _ = _
      simp

theorem mixed_all_fixed (hrows : 0 < m.data.numRows) (X : DrawnDesign m.data m.design.length) (ridge : Option ℝ)
    {con : Option (List (Fin (m.design.length + X.numMixed)))}
    (hall : ∀ i, i ∈ con.getD []) (θ : Fin (m.design.length + X.numMixed) → ℝ) :
    IsUnit (((mixedObject m hrows X ridge).est con).hessian θ).det := by
  have : Nonempty (Fin m.data.numRows) := ⟨⟨0, hrows⟩⟩
  have e : ((mixedObject m hrows X ridge).est con).hessian θ = -1 := by
    ext i j
    have h2 := mask_apply (mixedBHHH (θ ∘ twoParts m.design.length X.numMixed) X.values
      (m.data.rowsToObs m.args.obsIdCol) (m.data.rowsToObs X.mixCol) (m.data.val m.args.choiceCol) ridge
      (estWeights none)) (con.map fun l => l.map (twoParts m.design.length X.numMixed).symm)
      ((twoParts m.design.length X.numMixed).symm i) ((twoParts m.design.length X.numMixed).symm j)
    refine h2.trans ?_
    have hmem : (twoParts m.design.length X.numMixed).symm i ∈
        (con.map fun l => l.map (twoParts m.design.length X.numMixed).symm).getD [] := by
      cases con with
      | none => exact absurd (hall i) List.not_mem_nil
      | some l => exact List.mem_map_of_mem (hall i)
    refine (if_pos (Or.inl hmem)).trans ?_
    by_cases hij : i = j
    · subst hij
      exact (if_pos rfl).trans (by simp)
    · exact (if_neg (fun h => hij ((twoParts m.design.length X.numMixed).symm.injective h))).trans (by simp [hij])
  have h1 : IsUnit (-1 : Matrix (Fin (m.design.length + X.numMixed)) (Fin (m.design.length + X.numMixed)) ℝ).det := by
    rw [← Matrix.isUnit_iff_isUnit_det]
    exact isUnit_one.neg
  rw [e]
  exact h1

end Table

/-! ## Helper lemmas: the draws -/

theorem columnPositions_iff {n : ℕ} {pos : List ℕ} {l : List (Fin n)} :
    columnPositions n pos = .ok l ↔ l.map Fin.val = pos := by
  induction pos generalizing l with
  | nil =>
    rw [columnPositions, List.mapM_nil, List.map_eq_nil_iff]
    exact ⟨fun h => (Except.ok.inj h).symm, fun h => by rw [h]; rfl⟩
  | cons p pos ih =>
    rw [columnPositions, List.mapM_cons]
    simp only [bind, Except.bind, pure, Except.pure]
    by_cases hp : p < n
    · simp only [hp, dif_pos]
      split
      · rename_i e he
        constructor
        · rintro ⟨⟩
        · intro h
          cases l with
          | nil => simp at h
          | cons q l =>
            simp only [List.map_cons, List.cons.injEq] at h
            have := ih.2 h.2
            unfold columnPositions at this
            rw [this] at he
            cases he
      · rename_i l' hl'
        have := ih.1 hl'
        rw [Except.ok.injEq, ← this]
        constructor
        · rintro rfl
          rfl
        · intro h
          cases l with
          | nil => simp at h
          | cons q l =>
            simp only [List.map_cons, List.cons.injEq] at h
            have e1 : l' = l := (List.map_injective_iff.2 Fin.val_injective h.2).symm
            have e2 : (⟨p, hp⟩ : Fin n) = q := Fin.ext h.1.symm
            rw [e1, e2]
    · simp only [hp, dif_neg, not_false_eq_true]
      constructor
      · rintro ⟨⟩
      · intro h
        cases l with
        | nil => simp at h
        | cons q l =>
          simp only [List.map_cons, List.cons.injEq] at h
          exact absurd q.2 (h.1 ▸ hp)

/-- When draws can be made, and the expanded design matrix they give. -/
theorem drawn_design_iff (g : Rng) {m : ChoiceModel ℝ} {df : Frame ℝ} {cols : List (Fin df.numRows → ℝ)}
    {posF : List (Fin cols.length)} (hpos : m.mixingPos = some (posF.map Fin.val)) (numDraws : IntArg)
    (seed : Option IntArg) (s : g.State) (X : DrawnDesign df cols.length) (s' : g.State) :
    drawnDesign g m df cols numDraws seed s = .ok (X, s') ↔
      ∃ (mixCol : String) (d : ℕ) (s₀ : g.State), m.args.mixingIdCol = some mixCol ∧ mixCol ∈ df.columns ∧
        0 < df.numRows ∧ posF ≠ [] ∧ numDraws = .int d ∧ 0 < d ∧ DrawsFrom g seed s s₀ ∧
        s' = (normalsLoop g (originalOrderUniqueIds (df.colList mixCol)).length d posF.length s₀).2 ∧
        X = ⟨mixCol, d, posF.length, expandedDesign (Matrix.of fun r (k : Fin cols.length) => cols[k] r)
          (fun j : Fin posF.length => normalStream g (originalOrderUniqueIds (df.colList mixCol)).length d j s₀)
          posF.get (df.rowsToObs mixCol)⟩ := by
  have hF : columnPositions cols.length (posF.map Fin.val) = .ok posF := columnPositions_iff.2 rfl
  have hpo : mixingPosOf m = .ok (posF.map Fin.val) := by simp [mixingPosOf, hpos]
  have hrow : ∀ c, 0 < (originalOrderUniqueIds (df.colList c)).length ↔ 0 < df.numRows := by
    intro c
    constructor
    · intro h
      obtain ⟨r, -⟩ := mem_colList.1 (mem_originalOrder.1 (List.get_mem (originalOrderUniqueIds (df.colList c)) ⟨0, h⟩))
      exact (Nat.zero_le _).trans_lt r.2
    · intro h
      refine List.length_pos_of_mem (a := df.val c ⟨0, h⟩) ?_
      rw [mem_originalOrder]
      exact mem_colList.2 ⟨_, rfl⟩
  have hlist : ∀ {N d : ℕ} (s₀ : g.State) (hl : posF.length =
      ((List.range posF.length).map fun i => normalStream g N d i s₀).length),
      (fun j : Fin posF.length => ((List.range posF.length).map fun i => normalStream g N d i s₀).get (j.cast hl)) =
        fun j : Fin posF.length => normalStream g N d j s₀ := by
    intro N d s₀ hl
    funext j
    simp
  constructor
  · intro h
    unfold drawnDesign at h
    simp only [bind, Except.bind, hpo, List.length_map] at h
    split at h
    · cases h
    rename_i mixCol hmix
    split at h
    · cases h
    rename_i draws hdraws
    obtain ⟨d, l, s1⟩ := draws
    obtain ⟨h1, h2, h3, h4, s₀, h5, h6, h7⟩ := (normal_draws_iff g ..).1 hdraws
    rw [hF] at h
    simp only at h
    have hl : posF.length = l.length := by rw [h6]; simp
    have hne : l ≠ [] := by rw [← List.length_pos_iff, ← hl]; exact h3
    rw [(createExpandedDesign_contract _ _ _ _).2.2 hl hne] at h
    simp only [Except.ok.injEq, Prod.mk.injEq] at h
    have hmc : m.args.mixingIdCol = some mixCol ∧ mixCol ∈ df.columns := by
      unfold mixingColumnIn at hmix
      split at hmix
      · cases hmix
      rename_i c hc
      split_ifs at hmix with hin
      cases hmix
      exact ⟨hc, hin⟩
    refine ⟨mixCol, d, s₀, hmc.1, hmc.2, (hrow _).1 h1, List.length_pos_iff.1 h3, h4, h2, h5, h.2 ▸ h7, ?_⟩
    rw [← h.1]
    subst h6
    rw [hlist]
  · rintro ⟨mixCol, d, s₀, h1, h2, h3, h4, h5, h6, h7, rfl, rfl⟩
    have hmix : mixingColumnIn m df = .ok mixCol := by simp [mixingColumnIn, h1, h2]
    have hdraws : normalDraws g (originalOrderUniqueIds (df.colList mixCol)).length numDraws posF.length seed s =
        .ok ⟨d, (List.range posF.length).map (fun i =>
          normalStream g (originalOrderUniqueIds (df.colList mixCol)).length d i s₀),
          (normalsLoop g (originalOrderUniqueIds (df.colList mixCol)).length d posF.length s₀).2⟩ :=
      (normal_draws_iff g ..).2 ⟨(hrow _).2 h3, h6, List.length_pos_iff.2 h4, h5, s₀, h7, rfl, rfl⟩
    have hl : posF.length = ((List.range posF.length).map (fun i =>
        normalStream g (originalOrderUniqueIds (df.colList mixCol)).length d i s₀)).length := by simp
    have hne : (List.range posF.length).map (fun i =>
        normalStream g (originalOrderUniqueIds (df.colList mixCol)).length d i s₀) ≠ [] := by
      rw [← List.length_pos_iff, ← hl]
      exact List.length_pos_iff.2 h4
    simp only [drawnDesign, bind, Except.bind, hpo, hmix, List.length_map, hdraws, hF]
    rw [(createExpandedDesign_contract _ _ _ _).2.2 hl hne]
    simp only [hlist]

/-- The products of the expanded design matrix with a vector are the utilities of the rows under the draws. -/
theorem drawn_utility (g : Rng) {df : Frame ℝ} {altCol mixCol : String} {cds : List (ColDesc ℝ)}
    {cols : List (Fin df.numRows → ℝ)} (hcols : cols = cds.map fun d => d.value df altCol)
    {posF : List (Fin cols.length)} {col : ℕ → ℕ} (hcol : ∀ j : Fin posF.length, (posF.get j).val = col j)
    {d : ℕ} (s₀ : g.State) (θ : Fin (cols.length + posF.length) → ℝ) (t : Fin d) (r : Fin df.numRows) :
    ∑ q, expandedDesign (Matrix.of fun r (k : Fin cols.length) => cols[k] r)
        (fun j : Fin posF.length => normalStream g (originalOrderUniqueIds (df.colList mixCol)).length d j s₀)
        posF.get (df.rowsToObs mixCol) r t q * (θ ∘ twoParts cols.length posF.length) q =
      drawnUtility g df altCol mixCol cds col (firstAppearance (df.colList mixCol)) s₀ θ t r := by
  obtain ⟨f, hC, hiff⟩ := df.rowsToObs_indicates mixCol
  have hθ : θ ∘ twoParts cols.length posF.length = Sum.elim (fun i => θ (Fin.castAdd posF.length i))
      fun q => θ (Fin.natAdd cols.length q) := by
    funext q
    cases q <;> rfl
  rw [hθ, expanded_utility hC, drawnUtility, mixedUtility, ← unique_ids_eq_firstAppearance]
  have hl : cols.length = cds.length := by rw [hcols, List.length_map]
  have hpc : ∀ z : Fin posF.length → ℝ, personCoefs (List.ofFn fun i => θ (Fin.castAdd posF.length i))
      (fun q => θ (Fin.natAdd cols.length q)) (fun q => col q) z =
      List.ofFn fun k : Fin cols.length => θ (Fin.castAdd posF.length k) +
        ∑ j ∈ Finset.univ.filter (fun j : Fin posF.length => col j = k), θ (Fin.natAdd cols.length j) * z j := by
    intro z
    unfold personCoefs
    refine List.ext_getElem (by simp) fun i h1 h2 => ?_
    simp
  rw [hpc, ← design_dot hcols]
  refine Finset.sum_congr rfl fun k _ => ?_
  refine congrArg (_ * ·) ?_
  unfold randomCoef
  refine congrArg (_ + ·) ?_
  rw [Finset.sum_filter, Finset.sum_filter]
  refine Finset.sum_congr rfl fun j _ => ?_
  refine if_congr (by rw [Fin.ext_iff, hcol]) (congrArg (_ * ·) ?_) rfl
  have hr : (originalOrderUniqueIds (df.colList mixCol)).idxOf (df.val mixCol r) = (f r).val := by
    rw [(hiff r (f r)).1 rfl]
    exact (originalOrder_nodup _).idxOf_getElem _ _
  unfold personDraw
  rw [dif_pos (by rw [hr]; exact (f r).isLt)]
  simp [hr]

/-- The positions of the mixed variables. -/
theorem mixed_positions {env : Env ℝ} {df : Frame ℝ} {a : ModelArgs ℝ} {m : ChoiceModel ℝ}
    (hm : createChoiceModel env "Mixed Logit" df a = .ok m) {vars : List String} (hvars : a.mixingVars = some vars)
    (hnames : m.indVarNames.length = m.design.length) {col : ℕ → ℕ}
    (hname : ∀ j (h : j < vars.length), m.indVarNames[col j]? = some (.str vars[j]) ∧
      ∀ i < col j, m.indVarNames[i]? ≠ some (.str vars[j])) :
    ∃ posF : List (Fin m.design.length), m.mixingPos = some (posF.map Fin.val) ∧ posF.length = vars.length ∧
      ∀ j : Fin posF.length, (posF.get j).val = col j := by
  obtain ⟨pos, hpos, hpl, hpv⟩ := model_mixing_positions hm hvars
  have hposj : ∀ j (h : j < vars.length), pos[j]? = some (col j) := by
    intro j h
    have h' : j < pos.length := hpl ▸ h
    obtain ⟨q1, q2⟩ := hpv j h h'
    obtain ⟨q3, q4⟩ := hname j h
    rw [List.getElem?_eq_getElem h', Option.some.injEq]
    rcases lt_trichotomy pos[j] (col j) with e | e | e
    · exact absurd q1 (q4 _ e)
    · exact e
    · exact absurd q3 (q2 _ e)
  have hlt : ∀ p ∈ pos, p < m.design.length := by
    intro p hp
    obtain ⟨i, hi, rfl⟩ := List.mem_iff_getElem.1 hp
    obtain ⟨q1, -⟩ := hpv i (hpl ▸ hi) hi
    rw [← hnames]
    exact (List.getElem?_eq_some_iff.1 q1).1
  obtain ⟨posF, hF⟩ : ∃ posF : List (Fin m.design.length), posF.map Fin.val = pos :=
    ⟨pos.attach.map fun p => ⟨p.1, hlt p.1 p.2⟩, by simp⟩
  have hFl : posF.length = vars.length := by rw [← hpl, ← hF, List.length_map]
  refine ⟨posF, by rw [hF, hpos], hFl, fun j => ?_⟩
  have h1 := hposj j.val (hFl ▸ j.isLt)
  rw [← hF] at h1
  simpa using h1

theorem mixed_settings {env : Env ℝ} {df : Frame ℝ} {a : ModelArgs ℝ} {m : ChoiceModel ℝ}
    (hm : createChoiceModel env "Mixed Logit" df a = .ok m) :
    m.cls = .mixed ∧ m.args.mixingVars = a.mixingVars ∧ m.args.mixingIdCol = a.mixingIdCol := by
  have hk : modelTypeToClass.lookup "Mixed Logit" = some .mixed := by decide
  simp only [createChoiceModel, hk] at hm
  obtain ⟨h1, -, -, -, -, -, -, -, -, -, -, -, h2⟩ := classInit_ok hm
  exact ⟨(baseInit_attrs h1).1, h2 rfl⟩

private lemma coefs_ofFn {k j : ℕ} (θ : Fin (k + j) → ℝ) : mixedCoefs k j (List.ofFn θ) = θ ∘ twoParts k j := by
  funext q
  cases q with
  | inl i =>
    simp [mixedCoefs, show i.val < k + j by omega]
    rfl
  | inr i =>
    simp [mixedCoefs]
    rfl

/-- The probabilities a fit of a mixed logit model ends with. -/
theorem mixed_fit_probs {m : ChoiceModel ℝ} (X : DrawnDesign m.data m.design.length) (ids : List ℝ)
    {U : (Fin (m.design.length + X.numMixed) → ℝ) → Fin X.numDraws → Fin m.data.numRows → ℝ}
    (hU : ∀ θ t r, ∑ q, X.values r t q * (θ ∘ twoParts m.design.length X.numMixed) q = U θ t r)
    (θ : Fin (m.design.length + X.numMixed) → ℝ) :
    ∃ c, fitMixedProbs m X (List.ofFn θ) = .ok (c, fun r t => (tableOf m ids).prob (U θ t) r) ∧
      ∀ o t, c o t = ∑ q with m.data.val m.args.obsIdCol q =
        (originalOrderUniqueIds (m.data.colList m.args.obsIdCol)).get o,
          m.data.val m.args.choiceCol q * (tableOf m ids).prob (U θ t) q := by
  obtain ⟨f, hf, hiff⟩ := m.data.rowsToObs_indicates m.args.obsIdCol
  have hsum : ∀ t, (fun r => ∑ q, X.values r t q * mixedCoefs m.design.length X.numMixed (List.ofFn θ) q) = U θ t := by
    intro t
    funext r
    rw [coefs_ofFn, hU]
  have hlong : ∀ t, longProbs (m.data.rowsToObs m.args.obsIdCol) (U θ t) = (tableOf m ids).prob (U θ t) :=
    fun t => frame_longProbs _ _ _
  refine ⟨fun o t => chosenProbs (m.data.rowsToObs m.args.obsIdCol)
    (Matrix.of fun r o => m.data.rowsToObs m.args.obsIdCol r o * m.data.val m.args.choiceCol r) (U θ t) o, ?_, ?_⟩
  · simp only [fitMixedProbs, calcProbabilities, sysUtilities, bind, Except.bind, mnlTransform, Option.isNone_some,
      Bool.false_and, Bool.false_eq_true, if_false, hsum, hlong]
  · exact fun o t => chosen_sum m.data m.args.obsIdCol m.args.choiceCol (U θ t) o

private lemma neg_one_submatrix {P : Type} [DecidableEq P] {n : ℕ} (e : P ≃ Fin n) :
    (-1 : Matrix P P ℝ).submatrix e.symm e.symm = -1 := by
  ext i j
  simp [Matrix.submatrix_apply, Matrix.neg_apply, Matrix.one_apply]

private lemma mixed_run {g : Rng} {solver : Solver} {m : ChoiceModel ℝ} {a : MixedFitArgs} {st : g.State}
    {r : FitResults} (h : mixedFit g solver m a st = .ok r) :
    ∃ (x : List ℝ) (X : DrawnDesign m.data m.design.length) (s' : g.State) (hrows : 0 < m.data.numRows),
      a.init = ⟨some x, none, none, none⟩ ∧
      drawnDesign g m m.data m.design a.numDraws a.seed st = .ok (X, s') ∧
      x.length = m.design.length + X.numMixed ∧ (m.data.colList m.args.obsIdCol).Pairwise (· ≤ ·) ∧
      runMixedEstimation solver m (mixedObject m hrows X a.ridge) (fitMixedProbs m X) a.constrained x = .ok r := by
  unfold mixedFit at h
  simp only [bind, Except.bind] at h
  split at h
  · cases h
  rename_i x hx
  split at h
  · cases h
  rename_i X hX
  split at h
  · cases h
  rename_i u hu
  split at h
  · cases h
  rename_i hl
  split at h
  · rename_i hrows
    refine ⟨x, X.1, X.2, hrows, ?_, hX, not_not.1 hl, ?_, h⟩
    · revert hx
      generalize a.init = i
      obtain ⟨v, sh, ic, co⟩ := i
      cases v <;> cases sh <;> cases ic <;> cases co <;> simp [initPlain]
    · unfold estimationChecks at hu
      simp only [bind, Except.bind] at hu
      split at hu
      · cases hu
      split at hu
      · cases hu
      rename_i u1 hu1
      exact ensureContiguity_ok.1 hu1
  · cases h

private lemma draw_lists {m : ChoiceModel ℝ} {ids : List ℝ} {d : ℕ}
    (hs : (m.data.colList m.args.obsIdCol).Pairwise (· ≤ ·)) (hids : AltsOf m.data m.args.obsIdCol ids)
    (p : Fin m.data.numRows → Fin d → ℝ)
    {c : Fin (originalOrderUniqueIds (m.data.colList m.args.obsIdCol)).length → Fin d → ℝ}
    (hc : ∀ o t, c o t = ∑ q with m.data.val m.args.obsIdCol q =
      (originalOrderUniqueIds (m.data.colList m.args.obsIdCol)).get o, m.data.val m.args.choiceCol q * p q t) :
    (List.ofFn fun o => List.ofFn (c o)) = (ids.map fun i => List.ofFn fun t =>
      ∑ q ∈ (tableOf m ids).rows i, (tableOf m ids).y q * p q t) ∧
    (List.ofFn fun o => List.ofFn fun t => individualChiSquares (fun r => m.data.val m.args.choiceCol r - p r t)
        (fun r => p r t) (m.data.rowsToObs m.args.obsIdCol) o) =
      (ids.map fun i => List.ofFn fun t =>
        ∑ q ∈ (tableOf m ids).rows i, ((tableOf m ids).y q - p q t) ^ 2 / p q t) ∧
    ((ids.map fun i => List.ofFn fun t =>
        ∑ q ∈ (tableOf m ids).rows i, ((tableOf m ids).y q - p q t) ^ 2 / p q t).map List.sum).sum =
      ∑ t, ∑ q, ((tableOf m ids).y q - p q t) ^ 2 / p q t := by
  refine ⟨?_, ?_, ?_⟩
  · rw [← ofFn_ids hs hids]
    refine congrArg List.ofFn (funext fun o => congrArg List.ofFn (funext fun t => ?_))
    rw [hc]
    rfl
  · rw [← ofFn_ids hs hids]
    refine congrArg List.ofFn (funext fun o => congrArg List.ofFn (funext fun t => ?_))
    simp only [individualChiSquares, obs_sum]
    rfl
  · rw [List.map_map]
    have e : ∀ l : List ℝ, (l.map (List.sum ∘ fun i => List.ofFn fun t =>
        ∑ q ∈ (tableOf m ids).rows i, ((tableOf m ids).y q - p q t) ^ 2 / p q t)).sum =
        ∑ t, (l.map fun i => ∑ q ∈ (tableOf m ids).rows i, ((tableOf m ids).y q - p q t) ^ 2 / p q t).sum := by
      intro l
      induction l with
      | nil => simp
      | cons a l ih => simp [ih, Finset.sum_add_distrib, List.sum_ofFn]
    rw [e]
    exact Finset.sum_congr rfl fun t _ => sum_of_groups _ _ _ hids

private lemma store_variances {r : FitResults} {sf : ℝ → ℝ} {s t : FitAttrs}
    (hst : storeFitResults sf r s = (t, none)) (x : Fin r.n → ℝ) (hsplit : allParams r = List.ofFn x)
    (hcon : ∀ z ∈ r.constrained.getD [], ∃ i, PosIs r.n z i) (hsymm : r.hessianᵀ = r.hessian)
    {labels : Fin r.n → String} (hlab : List.ofFn labels = allNames r (addMixingNames s.names)) :
    VarianceReport labels r.constrained r.hessian t := by
  obtain ⟨names, inf, inf', hinf, hadj, e1, e2, -, -, -, -, -, -, -, e7, -, e9, -⟩ :=
    store_fit_consistent sf r s t hst x hsplit
  have hl := store_fit_labels sf r s t hst
  rw [e1] at hl
  simp only [Option.map_some, Option.some.injEq] at hl
  obtain rfl : names = labels := List.ofFn_injective (hl.trans hlab.symm)
  obtain ⟨hu, rfl⟩ := storeInference_ok hinf
  obtain ⟨q1, -, q3⟩ := adjust_spec hadj hcon
  have hcov : inf'.cov = -(r.hessian)⁻¹ := q1.trans (neg_one_smul ℝ _)
  have hneg : ∀ i, ((-1 : ℝ) • (r.hessian)⁻¹) i i = (-(r.hessian)⁻¹) i i := by
    intro i; simp
  refine ⟨e7, hsymm, hu, by rw [e9, hcov], _, e2, fun i => ⟨fun hf => ((q3 i).1 hf).1, fun hv => ?_, fun hf hv => ?_⟩⟩
  · by_cases hf : FixedLabel names r.constrained i
    · exact ((q3 i).1 hf).1
    · rw [((q3 i).2 hf).1]
      refine (congrArg sqrtNaN (hneg i)).trans ?_
      simp only [sqrtNaN, hv, if_true]
  · rw [((q3 i).2 hf).1]
    refine (congrArg sqrtNaN (hneg i)).trans ?_
    simp only [sqrtNaN, not_lt.mpr hv, if_false]

private lemma mixed_checks {env : Env ℝ} {m : ChoiceModel ℝ} (h : OwnTable env m) {mixCol : String}
    (hmix : m.args.mixingIdCol = some mixCol) (hin : mixCol ∈ m.data.columns) (rl : Bool) (cc : Option String)
    (hask : rl = true ∨ cc ≠ none) (names : List (PyVal ℝ)) :
    predictChecks (W := ℝ) { m with indVarNames := names } m.data none rl cc = .ok () := by
  have e1 : ensureColumnsInDataframe [m.args.altIdCol] m.data = .ok () :=
    ensureColumns_ok.2 (by simpa using h.alt)
  have e2 : ensureColumnsInDataframe [m.args.obsIdCol] m.data = .ok () :=
    ensureColumns_ok.2 (by simpa using h.obs)
  have e4 : ensureColumnsInDataframe [mixCol] m.data = .ok () :=
    ensureColumns_ok.2 (by simpa using hin)
  have e3 : ¬ (¬ rl = true ∧ cc = none) := by tauto
  simp only [predictChecks, e1, e2, hmix, e4, bind, Except.bind, if_neg e3]

private lemma mixed_own {env : Env ℝ} {g : Rng} {m : ChoiceModel ℝ} (h : OwnTable env m) {mixCol : String}
    (hmix : m.args.mixingIdCol = some mixCol) (hin : mixCol ∈ m.data.columns) {numDraws : IntArg}
    {seed : Option IntArg} {st s' : g.State} {X : DrawnDesign m.data m.design.length}
    (hX : drawnDesign g m m.data m.design numDraws seed st = .ok (X, s')) {x : List ℝ}
    (hx : x.length = m.design.length + X.numMixed) {c l} (hp : fitMixedProbs m X x = .ok (c, l))
    (names : List String) (ic sh ne : Option (List ℝ)) :
    predictMixedFrame env g m names ⟨x, ic, sh, ne⟩ m.data none true none numDraws seed st =
      .ok (.inl fun r => drawMean (l r), s') ∧
    predictMixedFrame env g m names ⟨x, ic, sh, ne⟩ m.data none false (some m.args.choiceCol) numDraws seed st =
      .ok (.inr fun o => drawMean (c o), s') ∧
    predictMixedFrame env g m names ⟨x, ic, sh, ne⟩ m.data none true (some m.args.choiceCol) numDraws seed st =
      .error .attributeError := by
  have hsz : ¬ (x.length ≠ m.design.length + X.numMixed) := not_not.2 hx
  simp only [fitMixedProbs, calcProbabilities, sysUtilities, bind, Except.bind, Option.isNone_some, Bool.false_and,
    Bool.false_eq_true, if_false, Except.ok.injEq, Prod.mk.injEq] at hp
  obtain ⟨rfl, rfl⟩ := hp
  have h1 : choiceArray m.data none = .ok none := rfl
  have h2 : choiceArray m.data (some m.args.choiceCol) = .ok (some (m.data.val m.args.choiceCol)) :=
    choiceArray_ok.2 ⟨by simp [h.choice], rfl⟩
  refine ⟨?_, ?_, ?_⟩ <;> unfold predictMixedFrame
  · simp only [mixed_checks h hmix hin true none (Or.inl rfl) _, h.design, h1, hX, bind, Except.bind, Option.getD_none,
      if_neg hsz, Option.map_none]
    rfl
  · simp only [mixed_checks h hmix hin false (some m.args.choiceCol) (Or.inr (by simp)) _, h.design, h2, hX, bind,
      Except.bind, Option.getD_none, if_neg hsz, Option.map_some]
    rfl
  · simp only [mixed_checks h hmix hin true (some m.args.choiceCol) (Or.inl rfl) _, h.design, h2, hX, bind,
      Except.bind, Option.getD_none, if_neg hsz, Option.map_some]
    rfl

/-! ## C111: what `fit_mle` of a mixed logit reports -/

/-- **C111**. Build a mixed logit model on a table in which every observation chose one row, fit it any number of
times, and let one fit store its results without an exception, after which no other does. Whatever the optimiser is -
as long as it reports the value of its objective where it stops - the attributes of the model then say what they
should about the table: there is one mean per described column, under the model's names, and one standard deviation
per mixed variable, under its name after "Sigma "; if the optimiser minimises, the parameters maximise the simulated
log-likelihood of the people's choices under the draws made from the seed or, without one, from the state of the
generator; log-likelihood, null log-likelihood, rho-squares, AIC, BIC and counts are those of the parameters reported;
fitted probabilities, residuals and chi-squares have one column per draw; if the rows of every observation belong to one
person, the gradient is right wherever no utility is clipped, for the optimiser as well; standard errors are the roots of the variances; without a ridge penalty, all
variances are positive, and standard errors, t- and p-values are those of the stored matrix, except for fixed
parameters; and predicting the table with the same draws gives the averages of the fitted probabilities.  Missing from
what one expects: the penalty enters the matrix in place of the Hessian with the wrong sign, so that with a penalty
variances need not be positive; and the stored Fisher information is minus the identity. -/
theorem mixed_fit_report_partial (g : Rng) {env : Env ℝ} {df : Frame ℝ} {a : ModelArgs ℝ} {m : ChoiceModel ℝ}
    (hm : createChoiceModel env "Mixed Logit" df a = .ok m) {vars : List String} (hvars : a.mixingVars = some vars)
    {s : List (String × SpecVal ℝ)} (hspec : m.args.specification = encodeAll s) (hkeys : (s.map Prod.fst).Nodup)
    (hnm : ∀ ns, m.args.names = some ns → (ns.map Prod.fst).Nodup)
    {alts ids : List ℝ} (ha : AltsOf m.data m.args.altIdCol alts) (hids : AltsOf m.data m.args.obsIdCol ids)
    {chosen : ℝ → Fin m.data.numRows} (hc : OneChoicePerObs m.data m.args.obsIdCol m.args.choiceCol chosen)
    {col : ℕ → ℕ} (hname : ∀ j (h : j < vars.length), m.indVarNames[col j]? = some (.str vars[j]) ∧
      ∀ i < col j, m.indVarNames[i]? ≠ some (.str vars[j]))
    {solver : Solver} (hsol : FaithfulSolver solver) (label : PyVal ℝ → String) (sf : ℝ → ℝ)
    (before after : List FitCall) (args : MixedFitArgs) (st : g.State) (hpoint : args.justPoint = false)
    (hst : (fitCall sf (mixedFitCall g solver m args st) (fitCalls sf before (freshFit label m))).2 = none)
    (hafter : ∀ d ∈ after, ∀ r, d.outcome ≠ .results r) :
    let t := (fitCalls sf (before ++ mixedFitCall g solver m args st :: after) (freshFit label m)).attrs
    let D := tableOf m ids
    ∃ (mixCol : String) (k j d : ℕ) (s₀ : g.State) (x : Fin (k + j) → ℝ) (labels : Fin (k + j) → String)
      (H : Matrix (Fin (k + j)) (Fin (k + j)) ℝ),
      let people := firstAppearance (m.data.colList mixCol)
      let U := fun (θ : Fin (k + j) → ℝ) (q : Fin d) r =>
        drawnUtility g m.data m.args.altIdCol mixCol (specColumns alts s) col people s₀ θ q r
      a.mixingIdCol = some mixCol ∧ args.numDraws = .int d ∧ 0 < d ∧ DrawsFrom g args.seed st s₀ ∧
      k = (specColumns alts s).length ∧ j = vars.length ∧
      List.ofFn labels = m.indVarNames.map label ++ vars.map (fun v => "Sigma " ++ v) ∧
      (∃ x₀, args.init.vals = some x₀ ∧ OptimiserReport solver x₀ args.constrained
        (D.simLogLik mixCol people args.ridge U) (fun θ => D.Panel mixCol ∧ Moderate (U θ)) (fun _ _ => 0) x H t) ∧
      FitStatistics D (D.simLogLik mixCol people args.ridge U x) D.equalShares labels x t ∧
      DrawProbabilities D (fun r q => D.prob (U x q) r) t ∧
      (MinimisingSolver solver →
        ∀ y, D.simLogLik mixCol people args.ridge U y ≤ D.simLogLik mixCol people args.ridge U x) ∧
      (D.Panel mixCol → Moderate (U x) →
        MixedDerivatives D mixCol people args.ridge U args.constrained labels x H t) ∧
      VarianceReport labels args.constrained H t ∧
      (args.ridge.getD 0 ≤ 0 → InferenceReport sf labels args.constrained x H (-1) t) ∧
      MixedReproduces env g m t df args.numDraws s₀ := by
  intro t D
  obtain ⟨r, hr⟩ : ∃ r, (mixedFitCall g solver m args st).outcome = .results r := by
    unfold mixedFitCall at hst ⊢
    rw [hpoint] at hst ⊢
    cases hf : mixedFit g solver m args st with
    | error e => simp [hf, fitOutcome, fitCall] at hst
    | ok r => exact ⟨r, by simp [fitOutcome]⟩
  obtain ⟨x₀, X, s', hrows, hx₀, hX, hxl, hasc, hrun⟩ := mixed_run (outcome_ok hr)
  obtain ⟨hcls, hmv, hmi⟩ := mixed_settings hm
  have hdes := (built_own hm).1.design
  rw [hspec] at hdes
  have hcols : m.design = (specColumns alts s).map fun d => d.value m.data m.args.altIdCol := design_entries ha hdes
  have hlen : m.design.length = (specColumns alts s).length := by rw [hcols, List.length_map]
  have hnames : m.indVarNames.length = m.design.length :=
    one_name_per_column (by simpa [encodeAll, Function.comp_def] using hkeys) hnm hdes
  obtain ⟨posF, hpos, hpl, hpc⟩ := mixed_positions hm hvars hnames hname
  obtain ⟨mixCol, d, s₀, q1, q2, -, q4, q5, q6, q7, q8, q9⟩ := (drawn_design_iff g hpos ..).1 hX
  have hX' : ∀ seed st', DrawsFrom g seed st' s₀ →
      drawnDesign g m m.data m.design args.numDraws seed st' = .ok (X, s') := fun seed st' h =>
    (drawn_design_iff g hpos ..).2 ⟨mixCol, d, s₀, q1, q2, hrows, q4, q5, q6, h, q8, q9⟩
  clear q8 hX
  subst q9
  set U : (Fin (m.design.length + posF.length) → ℝ) → Fin d → Fin m.data.numRows → ℝ := fun θ q r =>
    drawnUtility g m.data m.args.altIdCol mixCol (specColumns alts s) col (firstAppearance (m.data.colList mixCol)) s₀
      θ q r with hUdef
  have hU := fun θ q r => drawn_utility g (mixCol := mixCol) hcols hpc s₀ (d := d) θ q r
  set X : DrawnDesign m.data m.design.length := ⟨mixCol, d, posF.length, _⟩ with hXdef
  have hU' : ∀ θ q r, ∑ i, X.values r q i * (θ ∘ twoParts m.design.length X.numMixed) i = U θ q r := hU
  obtain ⟨f1, f2, f3, f4, f5⟩ := mixed_facts hrows X q6 hc ids args.ridge hU'
  set obj := mixedObject m hrows X args.ridge with hobj
  obtain ⟨ht, ht2⟩ := fits_latest sf before after _ r (freshFit label m) hr hst hafter
  have hst' : storeFitResults sf r (freshFit label m).attrs = (t, none) := Prod.ext ht.symm ht2
  obtain ⟨a1, a2, a3, a4, a5, a6⟩ := history_attrs sf before after _ r (freshFit label m) hr hst hafter
  unfold runMixedEstimation at hrun
  simp only [bind, Except.bind] at hrun
  split at hrun
  · cases hrun
  rename_i ps hps
  split at hrun
  · cases hrun
  rename_i rep hrep
  obtain ⟨c, hpr, hcsum⟩ := mixed_fit_probs X ids hU' rep.x
  have hpr' : fitMixedProbs m X (List.ofFn rep.x) = .ok (c, fun r q => D.prob (U rep.x q) r) := hpr
  rw [hpr'] at hrun
  simp only [Except.ok.injEq] at hrun
  have hL : ∀ θ, (obj.est ps).logLik θ = D.simLogLik mixCol (firstAppearance (m.data.colList mixCol)) args.ridge U θ :=
    f1 ps
  have hfin : -1 * rep.fun_ = D.simLogLik mixCol (firstAppearance (m.data.colList mixCol)) args.ridge U rep.x := by
    rw [hsol _ _ _ _ _ hrep, constrained_gradient_fst, hL]
    ring
  have hnull : (obj.est ps).logLik (fun _ => 0) = D.equalShares := (hL _).trans f2
  have hsplit : splitParamVec m.cls (fitDims m) (List.ofFn rep.x) = ⟨none, none, none, List.ofFn rep.x⟩ := by
    rw [hcls]; rfl
  have hsp : r.split = ⟨none, none, none, List.ofFn rep.x⟩ := by
    subst hrun
    exact hsplit
  have hlp : r.longProbs = List.ofFn fun q => List.ofFn fun w => D.prob (U rep.x w) q := by subst hrun; rfl
  have hcp : r.chosenProbs = List.ofFn fun o => List.ofFn (c o) := by subst hrun; rfl
  have hall : allParams r = List.ofFn rep.x := by
    rw [allParams, hsp]
    simp
  obtain ⟨r1, r2, r3⟩ := draw_lists hasc hids (fun r q => D.prob (U rep.x q) r) hcsum
  have hnames2 : allNames r (addMixingNames (freshFit label m).attrs.names) =
      (addMixingNames (modelNames label m)).indVarNames := by
    rw [allNames, hsp]
    simp [optionalLabels, freshFit]
  have hrepr : MixedReproduces env g m t df args.numDraws s₀ := by
    have harr : storedArrays t = .ok ⟨List.ofFn rep.x, none, none, none⟩ := by
      rw [hsp] at a1 a2 a3 a4
      change t.coefs.map Series.values = _ at a1
      change t.intercepts.map Series.values = _ at a2
      change t.shapes.map Series.values = _ at a3
      change t.nests.map Series.values = _ at a4
      unfold storedArrays
      cases hco : t.coefs with
      | none => simp [hco] at a1
      | some co =>
        rw [hco] at a1
        simp only [Option.map_some, Option.some.injEq] at a1
        simp only [a1, a2, a3, a4]
    have hmean : ∀ {n : ℕ} (p : Fin n → Fin d → ℝ), (List.ofFn fun i => drawMean (p i)) =
        rowMeans (List.ofFn fun i => List.ofFn (p i)) := by
      intro n p
      rw [rowMeans, List.map_ofFn]
      refine congrArg List.ofFn (funext fun i => ?_)
      simp [drawMean, List.sum_ofFn]
    have hl : (List.ofFn rep.x).length = m.design.length + X.numMixed := List.length_ofFn
    have key : ∀ seed st', DrawsFrom g seed st' s₀ → ∀ df' : Frame ℝ, df' = m.data →
        (∃ v s', predictMixedFrame env g m t.names.indVarNames ⟨List.ofFn rep.x, none, none, none⟩ df' none true none args.numDraws seed
          st' = .ok (.inl v, s') ∧ List.ofFn v = rowMeans r.longProbs) ∧
        (∃ v s', predictMixedFrame env g m t.names.indVarNames ⟨List.ofFn rep.x, none, none, none⟩ df' none false
          (some m.args.choiceCol) args.numDraws seed st' = .ok (.inr v, s') ∧ List.ofFn v = rowMeans r.chosenProbs) ∧
        predictMixedFrame env g m t.names.indVarNames ⟨List.ofFn rep.x, none, none, none⟩ df' none true (some m.args.choiceCol)
          args.numDraws seed st' = .error .attributeError := by
      rintro seed st' hdf df' rfl
      obtain ⟨p1, p2, p3⟩ := mixed_own (built_own hm).1 q1 q2 (hX' seed st' hdf) hl hpr' t.names.indVarNames none none none
      refine ⟨⟨_, _, p1, ?_⟩, ⟨_, _, p2, ?_⟩, p3⟩
      · rw [hlp]
        exact hmean _
      · rw [hcp]
        exact hmean _
    have hdf := (built_own hm).2.1
    refine ⟨fun seed st' h => ?_, fun seed st' h => ?_, fun seed st' h => ?_⟩
    · obtain ⟨⟨v, s2, b1, b2⟩, -, -⟩ := key seed st' h _ hdf
      exact ⟨_, v, s2, _, harr, b1, a6, b2⟩
    · obtain ⟨-, ⟨v, s2, b1, b2⟩, -⟩ := key seed st' h _ hdf
      exact ⟨_, v, s2, _, harr, b1, a5, b2⟩
    · obtain ⟨-, -, b1⟩ := key seed st' h _ hdf
      exact ⟨_, harr, b1⟩
  clear hsp ht ht2 hr a1 a2 a3 a4 a5 a6 hlp hcp
  subst hrun
  obtain ⟨labels, hlab, h1, -, h3, h5, h6, h7, h8, h9, h10, h11, h4⟩ := store_reports (D := D)
    (p := fun _ => 0) hst' rep.x hall rfl
    (by simp [estimate, rhoBarSquared]) (by
      show (List.ofFn _).length = ids.length
      rw [r1, List.length_map])
  have hlabels : List.ofFn labels = m.indVarNames.map label ++ vars.map (fun v => "Sigma " ++ v) := by
    have e := hlab.trans hnames2
    rw [e]
    unfold addMixingNames
    have hv : (modelNames label m).mixingVars = some vars := by rw [← hvars, ← hmv]; rfl
    rw [hv]
    by_cases hany : ((modelNames label m).indVarNames.any fun x => strIn "Sigma " x) = true
    · exfalso
      have e2 := congrArg List.length e
      unfold addMixingNames at e2
      simp only [hv, hany, if_true] at e2
      have e3 : (List.ofFn labels).length = m.design.length + posF.length := List.length_ofFn
      rw [e3] at e2
      simp only [modelNames, List.length_map, hnames] at e2
      have := List.length_pos_iff.2 q4
      omega
    · simp only [hany, if_false, Bool.false_eq_true]
      rfl
  refine ⟨mixCol, m.design.length, posF.length, d, s₀, rep.x, labels, (obj.est ps).hessian rep.x, hmi ▸ q1, q5, q6, q7,
    hlen, hpl, hlabels,
    ⟨x₀, by rw [hx₀], optimiser_report hps (reindex_positions _ ps) hL (fun θ hθ => ?_) hxl hrep h5 h6⟩, ?_, ?_,
    fun hmin y => ?_, fun hp hmod => ?_, ?_, fun hρ => ?_, hrepr⟩
  · simp only [sub_zero]
    exact f3 hθ.1 ps θ hθ.2
  · have h1' : FitStatistics D (-1 * rep.fun_) ((obj.est ps).logLik fun _ => 0) labels rep.x t := h1
    rwa [hfin, hnull] at h1'
  · exact ⟨h7, h8.trans (congrArg some r1), h9, h10.trans (congrArg some r2), h11.trans (congrArg some
      ((congrArg (fun l => (List.map List.sum l).sum) r2).trans r3))⟩
  · have hval : ∀ θ, ((obj.est ps).negLLAndGrad θ).1 =
        -D.simLogLik mixCol (firstAppearance (m.data.colList mixCol)) args.ridge U θ := fun θ => by
      rw [constrained_gradient_fst, hL]
    have h7 := hmin _ _ _ _ _ hrep y
    have h8 : -D.simLogLik mixCol (firstAppearance (m.data.colList mixCol)) args.ridge U rep.x ≤
        -D.simLogLik mixCol (firstAppearance (m.data.colList mixCol)) args.ridge U y :=
      (hval rep.x).symm.le.trans (h7.trans (hval y).le)
    linarith
  · obtain ⟨S, hS, hH⟩ := f5 hp rep.x hmod
    classical
    refine ⟨⟨_, h3, f3 hp ps rep.x hmod⟩, S, hS, fun i j => ?_⟩
    have hmem : (i ∈ ps.getD [] ∨ j ∈ ps.getD []) ↔ ∃ z ∈ args.constrained.getD [],
        PosIs (m.design.length + posF.length) z i ∨ PosIs (m.design.length + posF.length) z j := by
      refine (or_congr (constrainedArg_mem hps i) (constrainedArg_mem hps j)).trans ?_
      simp only [← exists_or, ← and_or_left]
      rfl
    refine (hH ps i j).trans ?_
    by_cases h9 : i ∈ ps.getD [] ∨ j ∈ ps.getD []
    · exact (if_pos h9).trans (if_pos (hmem.1 h9)).symm
    · exact (if_neg h9).trans (if_neg fun h => h9 (hmem.2 h)).symm
  · exact store_variances hst' rep.x hall (constrainedArg_ok hps) (f4 ps rep.x).1 hlab
  · have hF : obj.fisher rep.x = -1 := neg_one_submatrix (twoParts _ _)
    have h10 : InferenceReport sf labels args.constrained rep.x
        ((obj.est ps).hessian rep.x) (obj.fisher rep.x) t :=
      h4 ((f4 ps rep.x).nsd (le_min (by linarith) zero_le_one)) (constrainedArg_ok hps)
    exact hF ▸ h10

private lemma negative_robust {sf : ℝ → ℝ} {n : ℕ} {labels : Fin n → String} {con : Option (List ℤ)} {x : Fin n → ℝ}
    {H : Matrix (Fin n) (Fin n) ℝ} {t : FitAttrs} (hI : InferenceReport sf labels con x H (-1) t) (hsymm : Hᵀ = H) :
    ∃ labels : List String,
      t.robustStdErrs = some ⟨labels, labels.map fun _ => none⟩ ∧
      t.robustTStats = some ⟨labels, labels.map fun _ => none⟩ ∧
      t.robustPVals = some ⟨labels, labels.map fun _ => none⟩ := by
  have hneg : ∀ i, (H⁻¹ * (-1) * H⁻¹) i i < 0 := by
    intro i
    have h1 : (H⁻¹)ᵀ = H⁻¹ := by rw [Matrix.transpose_nonsing_inv, hsymm]
    have h2 : (H⁻¹ * (-1) * H⁻¹) i i = -∑ j, H⁻¹ i j ^ 2 := by
      rw [mul_neg, mul_one, neg_mul, Matrix.neg_apply, mul_apply]
      refine congrArg Neg.neg (Finset.sum_congr rfl fun j _ => ?_)
      rw [sq, show H⁻¹ j i = H⁻¹ i j from congrFun (congrFun h1 i) j]
    rw [h2, neg_lt_zero]
    have h3 : H⁻¹ * H = 1 := nonsing_inv_mul H hI.invertible
    refine lt_of_le_of_ne (Finset.sum_nonneg fun j _ => sq_nonneg _) fun h0 => ?_
    have h4 : ∀ j, H⁻¹ i j = 0 := fun j =>
      pow_eq_zero_iff (two_ne_zero) |>.1 ((Finset.sum_eq_zero_iff_of_nonneg fun j _ => sq_nonneg _).1 h0.symm j
        (Finset.mem_univ j))
    have h5 := congrFun (congrFun h3 i) i
    rw [mul_apply, one_apply_eq] at h5
    simp [h4] at h5
  obtain ⟨se, tv, pv, e1, e2, e3, h⟩ := hI.robust
  have h : ∀ i, se i = none ∧ tv i = none ∧ pv i = none := fun i => (h i).2.2 (hneg i)
  have key : ∀ v : Fin n → Option ℝ, (∀ i, v i = none) →
      List.ofFn v = (List.ofFn labels).map fun _ => none := by
    intro v hv
    rw [List.map_ofFn]
    exact congrArg List.ofFn (funext hv)
  refine ⟨List.ofFn labels, ?_, ?_, ?_⟩
  · rw [e1, key se fun i => (h i).1]
  · rw [e2, key tv fun i => (h i).2.1]
  · rw [e3, key pv fun i => (h i).2.2]

/-- **C111** (disagreement: robust inference). After a fit of a mixed logit model without a ridge penalty, all robust
standard errors, t- and p-values are NaN, because the stored Fisher information is minus the identity. -/
theorem mixed_robust_nan (g : Rng) {env : Env ℝ} {df : Frame ℝ} {a : ModelArgs ℝ} {m : ChoiceModel ℝ}
    (hm : createChoiceModel env "Mixed Logit" df a = .ok m) {vars : List String} (hvars : a.mixingVars = some vars)
    {s : List (String × SpecVal ℝ)} (hspec : m.args.specification = encodeAll s) (hkeys : (s.map Prod.fst).Nodup)
    (hnm : ∀ ns, m.args.names = some ns → (ns.map Prod.fst).Nodup)
    {alts ids : List ℝ} (ha : AltsOf m.data m.args.altIdCol alts) (hids : AltsOf m.data m.args.obsIdCol ids)
    {chosen : ℝ → Fin m.data.numRows} (hc : OneChoicePerObs m.data m.args.obsIdCol m.args.choiceCol chosen)
    {col : ℕ → ℕ} (hname : ∀ j (h : j < vars.length), m.indVarNames[col j]? = some (.str vars[j]) ∧
      ∀ i < col j, m.indVarNames[i]? ≠ some (.str vars[j]))
    {solver : Solver} (hsol : FaithfulSolver solver) (label : PyVal ℝ → String) (sf : ℝ → ℝ)
    (before after : List FitCall) (args : MixedFitArgs) (st : g.State) (hpoint : args.justPoint = false)
    (hridge : args.ridge.getD 0 ≤ 0)
    (hst : (fitCall sf (mixedFitCall g solver m args st) (fitCalls sf before (freshFit label m))).2 = none)
    (hafter : ∀ d ∈ after, ∀ r, d.outcome ≠ .results r) :
    let t := (fitCalls sf (before ++ mixedFitCall g solver m args st :: after) (freshFit label m)).attrs
    ∃ labels : List String,
      t.robustStdErrs = some ⟨labels, labels.map fun _ => none⟩ ∧
      t.robustTStats = some ⟨labels, labels.map fun _ => none⟩ ∧
      t.robustPVals = some ⟨labels, labels.map fun _ => none⟩ := by
  intro t
  obtain ⟨mixCol, k, j, d, s₀, x, labels, H, -, -, -, -, -, -, -, -, -, -, -, -, hV, hI, -⟩ :=
    mixed_fit_report_partial g hm hvars hspec hkeys hnm ha hids hc hname hsol label sf before after args st hpoint hst
      hafter
  exact negative_robust (hI hridge) hV.symm

private lemma run_mixed_ok {solver : Solver} {m : ChoiceModel ℝ}
    (hrows : 0 < m.data.numRows) (X : DrawnDesign m.data m.design.length) (ridge : Option ℝ) {con : Option (List ℤ)}
    {ps : Option (List (Fin (m.design.length + X.numMixed)))}
    (hps : constrainedArg (m.design.length + X.numMixed) con = .ok ps) (x : List ℝ)
    (hsol : ∃ r, solver (mixedObject m hrows X ridge).n ((mixedObject m hrows X ridge).est ps).negLLAndGrad
      (fun k => x.getD k 0) ((mixedObject m hrows X ridge).est ps).negHessian = .ok r) :
    ∃ r, runMixedEstimation solver m (mixedObject m hrows X ridge) (fitMixedProbs m X) con x = .ok r := by
  unfold runMixedEstimation
  obtain ⟨rep, hrep⟩ := hsol
  obtain ⟨c, hpr, -⟩ := mixed_fit_probs X [] (U := fun θ t r =>
    ∑ q, X.values r t q * (θ ∘ twoParts m.design.length X.numMixed) q) (fun θ t r => rfl) rep.x
  have hps' : constrainedArg (mixedObject m hrows X ridge).n con = .ok ps := hps
  have hpr' : fitMixedProbs m X (List.ofFn rep.x) = _ := hpr
  simp only [bind, Except.bind, hps', hrep, hpr']
  exact ⟨_, rfl⟩

theorem mixed_accepts_of (g : Rng) {env : Env ℝ} {df : Frame ℝ} {a : ModelArgs ℝ} {m : ChoiceModel ℝ}
    (hm : createChoiceModel env "Mixed Logit" df a = .ok m) {vars : List String} (hvars : a.mixingVars = some vars)
    {s : List (String × SpecVal ℝ)} (hspec : m.args.specification = encodeAll s) (hkeys : (s.map Prod.fst).Nodup)
    (hnm : ∀ ns, m.args.names = some ns → (ns.map Prod.fst).Nodup)
    {alts : List ℝ} (ha : AltsOf m.data m.args.altIdCol alts)
    {col : ℕ → ℕ} (hname : ∀ j (h : j < vars.length), m.indVarNames[col j]? = some (.str vars[j]) ∧
      ∀ i < col j, m.indVarNames[i]? ≠ some (.str vars[j]))
    {solver : Solver} (args : MixedFitArgs) (st : g.State)
    (hsol : ∀ hrows X ps x, 0 < X.numDraws → ∃ r, solver (mixedObject m hrows X args.ridge).n
      ((mixedObject m hrows X args.ridge).est ps).negLLAndGrad x
      ((mixedObject m hrows X args.ridge).est ps).negHessian = .ok r) :
    (∃ r, mixedFit g solver m args st = .ok r) ↔
      (∃ x : List ℝ, args.init = ⟨some x, none, none, none⟩ ∧
        x.length = (specColumns alts s).length + vars.length) ∧
      vars ≠ [] ∧ (∃ d : ℕ, 0 < d ∧ args.numDraws = .int d) ∧ (∃ s₀, DrawsFrom g args.seed st s₀) ∧
      (∃ mixCol, a.mixingIdCol = some mixCol ∧ mixCol ∈ m.data.columns) ∧
      (m.data.colList m.args.obsIdCol).Pairwise (· ≤ ·) ∧ 0 < m.data.numRows ∧
      ∀ z ∈ args.constrained.getD [], ∃ i, PosIs ((specColumns alts s).length + vars.length) z i := by
  have hdes := (built_own hm).1.design
  rw [hspec] at hdes
  have hlen : m.design.length = (specColumns alts s).length := by
    rw [show m.design = _ from design_entries ha hdes, List.length_map, specColumns]
  have hnames : m.indVarNames.length = m.design.length :=
    one_name_per_column (by simpa [encodeAll, Function.comp_def] using hkeys) hnm hdes
  obtain ⟨posF, hpos, hpl, hpc⟩ := mixed_positions hm hvars hnames hname
  obtain ⟨-, -, hmi⟩ := mixed_settings hm
  rw [← hlen, ← hpl]
  have hvn : vars ≠ [] ↔ posF ≠ [] := by
    rw [← List.length_pos_iff, ← List.length_pos_iff, hpl]
  constructor
  · rintro ⟨r, hr⟩
    obtain ⟨x₀, X, s', hrows, hx₀, hX, hxl, hasc, hrun⟩ := mixed_run hr
    obtain ⟨mixCol, d, s₀, q1, q2, -, q4, q5, q6, q7, q8, q9⟩ := (drawn_design_iff g hpos ..).1 hX
    subst q9
    refine ⟨⟨x₀, hx₀, hxl⟩, hvn.2 q4, ⟨d, q6, q5⟩, ⟨s₀, q7⟩, ⟨mixCol, hmi ▸ q1, q2⟩, hasc, hrows, ?_⟩
    unfold runMixedEstimation at hrun
    simp only [bind, Except.bind] at hrun
    split at hrun
    · cases hrun
    rename_i ps hps
    exact constrainedArg_exists.1 ⟨ps, hps⟩
  · rintro ⟨⟨x, hx, hxl⟩, hv, ⟨d, hd, hnd⟩, ⟨s₀, hs⟩, ⟨mixCol, hmc, hin⟩, hasc, hrows, hcon⟩
    obtain ⟨ps, hps⟩ := constrainedArg_exists.2 hcon
    have h1 : initPlain args.init = .ok x := by
      rw [hx]; simp [initPlain]
    have h2 : estimationChecks (args.ridge.map PyVal.num) (m.data.colList m.args.obsIdCol) .none = .ok () := by
      unfold estimationChecks
      have : ensureContiguity (m.data.colList m.args.obsIdCol) = .ok () := ensureContiguity_ok.2 hasc
      cases args.ridge <;> simp [checkRidge, this, checkWeights, bind, Except.bind]
    have hX := (drawn_design_iff g hpos args.numDraws args.seed st _ _).2
      ⟨mixCol, d, s₀, hmi.trans hmc, hin, hrows, hvn.1 hv, hnd, hd, hs, rfl, rfl⟩
    have h3 : ¬ (x.length ≠ m.design.length + posF.length) := not_not.2 hxl
    unfold mixedFit
    simp only [bind, Except.bind, h1, hX, h2, if_neg h3, dif_pos hrows]
    exact run_mixed_ok hrows _ args.ridge hps x (hsol hrows ⟨_, _, _, _⟩ ps _ hd)

/-- **C111** (which fits get results). With an optimiser that always returns, a fit of a mixed logit model gets to its
results exactly when it was given a vector of starting values with one value per described column and one per mixed
variable, of which there is at least one, and none of the keywords for other models; a positive whole number of draws;
no seed, or a positive whole number the generator accepts; the model was given a column of mixing ids; the ids of the
table, which has rows, ascend; and every position to be held fixed exists. -/
theorem mixed_fit_accepts (g : Rng) {env : Env ℝ} {df : Frame ℝ} {a : ModelArgs ℝ} {m : ChoiceModel ℝ}
    (hm : createChoiceModel env "Mixed Logit" df a = .ok m) {vars : List String} (hvars : a.mixingVars = some vars)
    {s : List (String × SpecVal ℝ)} (hspec : m.args.specification = encodeAll s) (hkeys : (s.map Prod.fst).Nodup)
    (hnm : ∀ ns, m.args.names = some ns → (ns.map Prod.fst).Nodup)
    {alts : List ℝ} (ha : AltsOf m.data m.args.altIdCol alts)
    {col : ℕ → ℕ} (hname : ∀ j (h : j < vars.length), m.indVarNames[col j]? = some (.str vars[j]) ∧
      ∀ i < col j, m.indVarNames[i]? ≠ some (.str vars[j]))
    {solver : Solver} (hsol : ∀ n f x h, ∃ r, solver n f x h = .ok r) (args : MixedFitArgs) (st : g.State) :
    (∃ r, mixedFit g solver m args st = .ok r) ↔
      (∃ x : List ℝ, args.init = ⟨some x, none, none, none⟩ ∧
        x.length = (specColumns alts s).length + vars.length) ∧
      vars ≠ [] ∧ (∃ d : ℕ, 0 < d ∧ args.numDraws = .int d) ∧ (∃ s₀, DrawsFrom g args.seed st s₀) ∧
      (∃ mixCol, a.mixingIdCol = some mixCol ∧ mixCol ∈ m.data.columns) ∧
      (m.data.colList m.args.obsIdCol).Pairwise (· ≤ ·) ∧ 0 < m.data.numRows ∧
      ∀ z ∈ args.constrained.getD [], ∃ i, PosIs ((specColumns alts s).length + vars.length) z i :=
  mixed_accepts_of g hm hvars hspec hkeys hnm ha hname args st fun _ _ _ _ _ => hsol _ _ _ _

/-- **C111** (which fits are stored). A fit of a mixed logit model that got to its results stores them without an
exception exactly when the matrix in place of its Hessian is invertible and none of the names of the model contains the
text "Sigma "; with a negative ridge penalty, or when all parameters are held fixed, the matrix is invertible. -/
theorem mixed_fit_stores (g : Rng) {env : Env ℝ} {df : Frame ℝ} {a : ModelArgs ℝ} {m : ChoiceModel ℝ}
    (hm : createChoiceModel env "Mixed Logit" df a = .ok m) {vars : List String} (hvars : a.mixingVars = some vars)
    {s : List (String × SpecVal ℝ)} (hspec : m.args.specification = encodeAll s) (hkeys : (s.map Prod.fst).Nodup)
    (hnm : ∀ ns, m.args.names = some ns → (ns.map Prod.fst).Nodup)
    {chosen : ℝ → Fin m.data.numRows} (hc : OneChoicePerObs m.data m.args.obsIdCol m.args.choiceCol chosen)
    {col : ℕ → ℕ} (hname : ∀ j (h : j < vars.length), m.indVarNames[col j]? = some (.str vars[j]) ∧
      ∀ i < col j, m.indVarNames[i]? ≠ some (.str vars[j]))
    {solver : Solver} (label : PyVal ℝ → String) (sf : ℝ → ℝ) (before : List FitCall) (args : MixedFitArgs)
    (st : g.State) (hpoint : args.justPoint = false) {r : FitResults} (hr : mixedFit g solver m args st = .ok r) :
    ((fitCall sf (mixedFitCall g solver m args st) (fitCalls sf before (freshFit label m))).2 = none ↔
      IsUnit r.hessian.det ∧ ∀ v ∈ m.indVarNames, ¬ "Sigma ".toList <:+: (label v).toList) ∧
    (args.ridge.getD 0 < 0 → IsUnit r.hessian.det) ∧
    ((∀ i : Fin (m.indVarNames.length + vars.length), ∃ z ∈ args.constrained.getD [],
      PosIs (m.indVarNames.length + vars.length) z i) → IsUnit r.hessian.det) := by
  obtain ⟨x₀, X, s', hrows, hx₀, hX, hxl, hasc, hrun⟩ := mixed_run hr
  have hdes := (built_own hm).1.design
  rw [hspec] at hdes
  have hnames : m.indVarNames.length = m.design.length :=
    one_name_per_column (by simpa [encodeAll, Function.comp_def] using hkeys) hnm hdes
  obtain ⟨posF, hpos, hpl, hpc⟩ := mixed_positions hm hvars hnames hname
  obtain ⟨hcls, hmv, -⟩ := mixed_settings hm
  obtain ⟨mixCol, d, s₀, q1, q2, -, q4, q5, q6, q7, q8, q9⟩ := (drawn_design_iff g hpos ..).1 hX
  clear hX q8
  subst q9
  set X : DrawnDesign m.data m.design.length := ⟨mixCol, d, posF.length, _⟩ with hXdef
  obtain ⟨-, -, -, f4, -⟩ := mixed_facts hrows X q6 hc [] args.ridge (U := fun θ t r =>
      ∑ q, X.values r t q * (θ ∘ twoParts m.design.length X.numMixed) q) (fun θ t r => rfl)
  unfold runMixedEstimation at hrun
  simp only [bind, Except.bind] at hrun
  split at hrun
  · cases hrun
  rename_i ps hps
  split at hrun
  · cases hrun
  rename_i rep hrep
  obtain ⟨c, hpr, -⟩ := mixed_fit_probs X [] (U := fun θ t r =>
      ∑ q, X.values r t q * (θ ∘ twoParts m.design.length X.numMixed) q) (fun θ t r => rfl) rep.x
  have hpr' : fitMixedProbs m X (List.ofFn rep.x) = _ := hpr
  rw [hpr'] at hrun
  simp only [Except.ok.injEq] at hrun
  have hcon := constrainedArg_exists.1 ⟨ps, hps⟩
  have hsplit : ∀ l : List ℝ, splitParamVec m.cls (fitDims m) l = ⟨none, none, none, l⟩ := by
    intro l
    rw [hcls]; rfl
  have hv : (modelNames label m).mixingVars = some vars := by rw [← hvars, ← hmv]; rfl
  have hn : (List.ofFn rep.x).length = m.design.length + posF.length := List.length_ofFn
  have hany : ((modelNames label m).indVarNames.any fun x => strIn "Sigma " x) = true ↔
      ¬ ∀ v ∈ m.indVarNames, ¬ "Sigma ".toList <:+: (label v).toList := by
    simp [modelNames, strIn]
  have hidx : (addMixingNames (modelNames label m)).indVarNames.length = m.design.length + posF.length ↔
      ∀ v ∈ m.indVarNames, ¬ "Sigma ".toList <:+: (label v).toList := by
    unfold addMixingNames
    have hp := List.length_pos_iff.2 q4
    have hl : (modelNames label m).indVarNames.length = m.design.length := by simp [modelNames, hnames]
    by_cases h : ((modelNames label m).indVarNames.any fun x => strIn "Sigma " x) = true
    · simp only [hv, h, if_true, hl]
      constructor
      · intro; omega
      · intro h'; exact absurd h' (hany.1 h)
    · simp only [hv, h, if_false, Bool.false_eq_true, List.length_append, List.length_map, hl, hpl, true_iff]
      exact not_not.1 fun h' => h (hany.2 h')
  refine ⟨?_, fun hρ => ?_, fun hall => ?_⟩
  · have hout : (mixedFitCall g solver m args st).outcome = .results r := by
      simp [mixedFitCall, fitOutcome, hr, hpoint]
    simp only [fitCall, hout]
    rw [store_fit_iff]
    have hcongr : Storable (fitCalls sf before (freshFit label m)).attrs.names r ↔ Storable (modelNames label m) r :=
      ⟨storable_congr (fitCalls_names sf before (freshFit label m)),
        storable_congr (fitCalls_names sf before (freshFit label m)).symm⟩
    rw [hcongr]
    subst hrun
    refine ⟨fun h => ⟨h.regular, hidx.1 ?_⟩, fun hu => ?_⟩
    · have := h.index
      dsimp only at this
      rw [hsplit, hn] at this
      exact this
    · constructor
      · intro p g h1; dsimp only at h1; rw [hsplit] at h1; cases h1
      · intro p g h1; dsimp only at h1; rw [hsplit] at h1; cases h1
      · intro p g h1; dsimp only at h1; rw [hsplit] at h1; cases h1
      · dsimp only
        rw [hsplit, hn]
        exact hidx.2 hu.2
      · dsimp only
        rw [hsplit]
        simp only [Option.getD_none, List.length_nil, hn, zero_add]
        rfl
      · exact hu.1
      · intro cs e pos hmem
        have e' : args.constrained = some cs := e
        rw [e'] at hcon
        obtain ⟨i, hi⟩ := hcon pos hmem
        have := i.2
        unfold PosIs at hi
        show -(((mixedObject m hrows X args.ridge).n : ℕ) : ℤ) ≤ pos ∧ pos < ((mixedObject m hrows X args.ridge).n : ℕ)
        omega
  · subst hrun
    exact (f4 ps rep.x).regular (lt_min (by linarith) one_pos)
  · subst hrun
    rw [hnames, ← hpl] at hall
    exact mixed_all_fixed hrows X args.ridge (fun i => (constrainedArg_mem hps i).2 (hall i)) rep.x

/-- **C111** (seeds). Fits of a mixed logit model with the same arguments and a seed have the same results, whatever the
state of the generator was. -/
theorem mixed_fit_seeded (g : Rng) (solver : Solver) (m : ChoiceModel ℝ) (args : MixedFitArgs)
    (hseed : args.seed ≠ none) (st st' : g.State) :
    mixedFit g solver m args st = mixedFit g solver m args st' := by
  obtain ⟨k, hk⟩ := Option.ne_none_iff_exists'.1 hseed
  unfold mixedFit drawnDesign
  rw [hk]
  simp only [normal_draws_seeded (g := g) _ _ _ k st st']

/-- **C111** (the penalty on record). A call of `fit_mle` that is given no keyword for other models leaves its ridge
penalty in the attribute of the model, whatever becomes of the fit. -/
theorem mixed_fit_sets_ridge (g : Rng) (solver : Solver) (m : ChoiceModel ℝ) (sf : ℝ → ℝ) (s : FitState)
    (args : MixedFitArgs) (st : g.State)
    (_ : args.init.shapes = none ∧ args.init.intercepts = none ∧ args.init.coefs = none) :
    (fitCall sf (mixedFitCall g solver m args st) s).1.ridgeParam = args.ridge := by
  unfold fitCall
  split <;> rfl

/-! ## Concrete fits -/

/-- One person who chose the first of two alternatives; `x` does not vary. -/
def exSameX : Frame ℝ where
  columns := ["obs", "alt", "choice", "person", "x"]
  numRows := 2
  val := fun c => if c = "alt" then ![1, 2] else if c = "choice" then ![1, 0] else ![1, 1]

private theorem exSame_lists : AltsOf exSameX "alt" [1, 2] ∧ AltsOf exSameX "obs" [1] := by
  refine ⟨⟨by norm_num, fun x => ⟨?_, ?_⟩⟩, ⟨by simp, fun x => ⟨?_, ?_⟩⟩⟩
  · intro hx
    simp only [List.mem_cons, List.not_mem_nil, or_false] at hx
    rcases hx with rfl | rfl
    · exact ⟨(0 : Fin 2), rfl⟩
    · exact ⟨(1 : Fin 2), rfl⟩
  · rintro ⟨r, rfl⟩
    change Fin 2 at r
    fin_cases r <;> simp [exSameX]
  · intro hx
    rw [List.mem_singleton.1 hx]
    exact ⟨(0 : Fin 2), rfl⟩
  · rintro ⟨r, rfl⟩
    change Fin 2 at r
    fin_cases r <;> simp [exSameX]

private theorem exSame_choice : OneChoicePerObs exSameX "obs" "choice" fun _ => (0 : Fin 2) := by
  refine ⟨?_, ?_, ?_⟩ <;> intro r <;> change Fin 2 at r <;> fin_cases r <;> simp [exSameX]

private theorem exSame_name {m : ChoiceModel ℝ} (h : m.indVarNames = [.str "x"]) :
    ∀ j (hj : j < ["x"].length), m.indVarNames[(fun _ => 0 : ℕ → ℕ) j]? = some (.str ["x"][j]) ∧
      ∀ i < (fun _ => 0 : ℕ → ℕ) j, m.indVarNames[i]? ≠ some (.str ["x"][j]) := by
  intro j hj
  obtain rfl : j = 0 := by simpa using hj
  simp [h]

/-- The arguments of fits that start at zero, with one draw made from seed 1. -/
def exMixedArgs (ridge : Option ℝ) (con : Option (List ℤ)) : MixedFitArgs :=
  { init := ⟨some [0, 0], none, none, none⟩, ridge := ridge, constrained := con, justPoint := false
    numDraws := .int 1, seed := some (.int 1) }

private theorem exMixed_accepts {m : ChoiceModel ℝ} {env : Env ℝ}
    (hm : createChoiceModel env "Mixed Logit" exSameX exPeopleArgs = .ok m) (ha : m.args = exPeopleArgs)
    (hd : m.data = exSameX) (hn : m.indVarNames = [.str "x"]) (st : ℕ) (ridge : Option ℝ) (con : Option (List ℤ))
    (hcon : con = none ∨ con = some [0, 1]) :
    ∃ r, mixedFit countingRng exStaying m (exMixedArgs ridge con) st = .ok r := by
  have hcol : (specColumns [1, 2] [("x", (SpecVal.allSame : SpecVal ℝ))]).length = 1 := by
    simp [specColumns, SpecVal.columns]
  refine (mixed_fit_accepts countingRng hm rfl (s := [("x", .allSame)]) (by rw [ha]; rfl) (by simp)
    (by rw [ha]; intro ns h; cases h) (alts := [1, 2]) (by rw [ha, hd]; exact exSame_lists.1) (exSame_name hn)
    (fun n f x h => ⟨_, rfl⟩) _ _).2
    ⟨⟨[0, 0], rfl, by simp [hcol]⟩, by simp, ⟨1, one_pos, rfl⟩, ⟨(1 : ℕ), .inr ⟨1, one_pos, rfl, by simp [countingRng]⟩⟩,
      ⟨"person", rfl, by rw [hd]; simp [exSameX]⟩, ?_, ?_, ?_⟩
  · rw [ha, hd]
    simp [exSameX, exPeopleArgs, Frame.colList]
  · rw [hd]
    simp [exSameX]
  · intro z hz
    rcases hcon with rfl | rfl
    · simp [exMixedArgs] at hz
    · rcases List.mem_cons.1 hz with rfl | hz
      · exact ⟨(0 : Fin 2), Or.inl rfl⟩
      · obtain rfl := List.mem_singleton.1 hz
        exact ⟨(1 : Fin 2), Or.inl rfl⟩

/-- Non-vacuity of `mixed_fit_report_partial` and `mixed_robust_nan`: a fit that stores its results. -/
example (env : Env ℝ) (henv : env.badCol = fun _ => false) (st : ℕ) (label : PyVal ℝ → String)
    (hlabel : label (.str "x") = "x") (sf : ℝ → ℝ) :
    ∃ m, createChoiceModel env "Mixed Logit" exSameX exPeopleArgs = .ok m ∧
      (fitCall sf (mixedFitCall countingRng exStaying m (exMixedArgs none (some [0, 1])) st) (freshFit label m)).2 =
        none := by
  obtain ⟨m, hm, ha, hd, hn⟩ := exPeople_model env henv (L := exSameX) rfl exSame_lists.1
  refine ⟨m, hm, ?_⟩
  obtain ⟨r, hr⟩ := exMixed_accepts hm ha hd hn st none (some [0, 1]) (.inr rfl)
  obtain ⟨chosen, hc⟩ : ∃ c, OneChoicePerObs m.data m.args.obsIdCol m.args.choiceCol c := by
    rw [ha, hd]
    exact ⟨_, exSame_choice⟩
  obtain ⟨h1, -, h3⟩ := mixed_fit_stores countingRng hm rfl (s := [("x", .allSame)]) (by rw [ha]; rfl) (by simp)
    (by rw [ha]; intro ns h; cases h) hc (exSame_name hn) label sf [] _ st rfl hr
  refine h1.2 ⟨h3 fun i => ?_, ?_⟩
  · rcases i with ⟨i, hi⟩
    simp only [hn, List.length_cons, List.length_nil] at hi
    interval_cases i
    · exact ⟨0, by simp [exMixedArgs], Or.inl rfl⟩
    · exact ⟨1, by simp [exMixedArgs], Or.inl rfl⟩
  · rw [hn]
    simp only [List.mem_singleton, forall_eq, hlabel]
    decide

private lemma flat_prob (D : LongData) (mixCol : String) {d : ℕ} {u v : Fin d → Fin D.df.numRows → ℝ}
    (hu : ∀ t r s, u t r = u t s) (hv : ∀ t r s, v t r = v t s) (who : ℝ) :
    D.personLog mixCol u who = D.personLog mixCol v who := by
  have key : ∀ w : Fin D.df.numRows → ℝ, (∀ r s, w r = w s) → ∀ r,
      D.prob w r = 1 / ((rowsOf (D.df.val D.obsCol) (D.df.val D.obsCol r)).card : ℝ) := by
    intro w hw r
    have e : w = fun _ => w r := funext fun q => hw q r
    rw [e]
    simp only [LongData.prob, clippedLogit, logitProb, Finset.sum_const, nsmul_eq_mul]
    have := Real.exp_pos (clip700 (w r))
    have h2 : ((rowsOf (D.df.val D.obsCol) (D.df.val D.obsCol r)).card : ℝ) ≠ 0 := by
      rw [Nat.cast_ne_zero, ← Nat.pos_iff_ne_zero, Finset.card_pos]
      exact ⟨r, by simp [rowsOf]⟩
    field_simp
  unfold LongData.personLog
  simp only [key _ (hu _), key _ (hv _)]

private lemma flat_score (D : LongData) (mixCol : String) {n d : ℕ} {U : (Fin n → ℝ) → Fin d → Fin D.df.numRows → ℝ}
    (hflat : ∀ θ t r r', U θ t r = U θ t r') {who : ℝ} {S x : Fin n → ℝ}
    (hS : HasPartials (fun θ => D.personLog mixCol (U θ) who) S x) (i : Fin n) : S i = 0 := by
  refine (hS i).unique ((hasDerivAt_const (x i) (D.personLog mixCol (U x) who)).congr_of_eventuallyEq
    (Filter.Eventually.of_forall fun y => ?_))
  exact flat_prob D mixCol (hflat _) (hflat _) who

private lemma flat_hessian {m : ChoiceModel ℝ} (hrows : 0 < m.data.numRows) (X : DrawnDesign m.data m.design.length)
    (hd : 0 < X.numDraws) {chosen : ℝ → Fin m.data.numRows}
    (hc : OneChoicePerObs m.data m.args.obsIdCol m.args.choiceCol chosen) (ridge : Option ℝ)
    {U : (Fin (m.design.length + X.numMixed) → ℝ) → Fin X.numDraws → Fin m.data.numRows → ℝ}
    (hU : ∀ θ t r, ∑ q, X.values r t q * (θ ∘ twoParts m.design.length X.numMixed) q = U θ t r)
    (hp : (tableOf m []).Panel X.mixCol) (hflat : ∀ θ t r r', U θ t r = U θ t r') (hρ : ridge.getD 0 ≠ 0) :
    IsUnit (((mixedObject m hrows X ridge).est none).hessian fun _ => 0).det := by
  obtain ⟨-, -, -, -, f5⟩ := mixed_facts hrows X hd hc [] ridge hU
  obtain ⟨S, hS, hH⟩ := f5 hp (fun _ => 0) fun t r => by
    rw [← hU]
    simp
  have hS0 : ∀ i j, ((firstAppearance (m.data.colList X.mixCol)).map fun who => S who i * S who j).sum = 0 :=
    fun i j => List.sum_eq_zero fun v hv => by
      obtain ⟨who, hwho, rfl⟩ := List.mem_map.1 hv
      rw [flat_score (tableOf m []) X.mixCol hflat (hS who hwho), zero_mul]
  have e : ((mixedObject m hrows X ridge).est none).hessian (fun _ => 0) = (2 * ridge.getD 0) • 1 := by
    ext i j
    have k : ∀ i j, -((firstAppearance (m.data.colList X.mixCol)).map fun who => S who i * S who j).sum +
        2 * ridge.getD 0 * (if i = j then 1 else 0) = 2 * ridge.getD 0 * (if i = j then 1 else 0) := by
      intro i j
      rw [hS0, neg_zero, zero_add]
    refine (hH none i j).trans ((if_neg (by rintro (h | h) <;> exact absurd h List.not_mem_nil)).trans
      ((k i j).trans ?_))
    by_cases hij : i = j
    · subst hij
      exact (congrArg _ (if_pos rfl)).trans (by simp)
    · exact (congrArg _ (if_neg hij)).trans (by simp [hij])
  rw [e, Matrix.det_smul, Matrix.det_one, mul_one]
  exact (isUnit_iff_ne_zero.2 (mul_ne_zero two_ne_zero hρ)).pow _

private lemma flat_regular (g : Rng) {env : Env ℝ} {df : Frame ℝ} {a : ModelArgs ℝ} {m : ChoiceModel ℝ}
    (hm : createChoiceModel env "Mixed Logit" df a = .ok m) {vars : List String} (hvars : a.mixingVars = some vars)
    {s : List (String × SpecVal ℝ)} (hspec : m.args.specification = encodeAll s) (hkeys : (s.map Prod.fst).Nodup)
    (hnm : ∀ ns, m.args.names = some ns → (ns.map Prod.fst).Nodup)
    {alts : List ℝ} (ha : AltsOf m.data m.args.altIdCol alts)
    {chosen : ℝ → Fin m.data.numRows} (hc : OneChoicePerObs m.data m.args.obsIdCol m.args.choiceCol chosen)
    {col : ℕ → ℕ} (hname : ∀ j (h : j < vars.length), m.indVarNames[col j]? = some (.str vars[j]) ∧
      ∀ i < col j, m.indVarNames[i]? ≠ some (.str vars[j]))
    (hflat : ∀ mixCol, a.mixingIdCol = some mixCol → (tableOf m []).Panel mixCol ∧
      ∀ (k j d : ℕ) (s₀ : g.State) (θ : Fin (k + j) → ℝ) (t : Fin d) r r',
        drawnUtility g m.data m.args.altIdCol mixCol (specColumns alts s) col (firstAppearance (m.data.colList mixCol)) s₀
          θ t r = drawnUtility g m.data m.args.altIdCol mixCol (specColumns alts s) col
          (firstAppearance (m.data.colList mixCol)) s₀ θ t r')
    {args : MixedFitArgs} {st : g.State} {x : List ℝ} (hinit : args.init = ⟨some x, none, none, none⟩)
    (hx : ∀ k, x.getD k 0 = 0) (hcon : args.constrained = none) (hρ : args.ridge.getD 0 ≠ 0) {r : FitResults}
    (hr : mixedFit g exStaying m args st = .ok r) : IsUnit r.hessian.det := by
  obtain ⟨x₀, X, s', hrows, hx₀, hX, hxl, hasc, hrun⟩ := mixed_run hr
  obtain rfl : x = x₀ := by
    rw [hinit] at hx₀
    cases hx₀
    rfl
  have hdes := (built_own hm).1.design
  rw [hspec] at hdes
  have hcols : m.design = (specColumns alts s).map fun d => d.value m.data m.args.altIdCol := design_entries ha hdes
  have hnames : m.indVarNames.length = m.design.length :=
    one_name_per_column (by simpa [encodeAll, Function.comp_def] using hkeys) hnm hdes
  obtain ⟨posF, hpos, hpl, hpc⟩ := mixed_positions hm hvars hnames hname
  obtain ⟨hcls, hmv, hmi⟩ := mixed_settings hm
  obtain ⟨mixCol, d, s₀, q1, q2, -, q4, q5, q6, q7, q8, q9⟩ := (drawn_design_iff g hpos ..).1 hX
  clear hX q8
  subst q9
  have hU := fun θ q r => drawn_utility g (mixCol := mixCol) hcols hpc s₀ (d := d) θ q r
  set X : DrawnDesign m.data m.design.length := ⟨mixCol, d, posF.length, _⟩ with hXdef
  have hU' : ∀ (θ : Fin (m.design.length + X.numMixed) → ℝ) (q : Fin X.numDraws) r,
      ∑ i, X.values r q i * (θ ∘ twoParts m.design.length X.numMixed) i = drawnUtility g m.data m.args.altIdCol mixCol
        (specColumns alts s) col (firstAppearance (m.data.colList mixCol)) s₀ θ q r := hU
  obtain ⟨hp, hfl⟩ := hflat mixCol (hmi ▸ q1)
  have hreg := flat_hessian hrows X q6 hc args.ridge hU' hp (fun θ t r r' => hfl _ _ _ _ _ _ _ _) hρ
  unfold runMixedEstimation at hrun
  rw [hcon] at hrun
  simp only [bind, Except.bind, constrainedArg, exStaying] at hrun
  split at hrun
  · cases hrun
  simp only [Except.ok.injEq] at hrun
  subst hrun
  have e3 : (fun k : Fin (mixedObject m hrows X args.ridge).n => x.getD k 0) = fun _ => 0 := funext fun k => hx k
  show IsUnit (((mixedObject m hrows X args.ridge).est none).hessian
    (fun k : Fin (mixedObject m hrows X args.ridge).n => x.getD k 0)).det
  rw [e3]
  exact hreg

private lemma exSame_flat {m : ChoiceModel ℝ} (hd : m.data = exSameX) :
    ∀ (k j d : ℕ) (s₀ : ℕ) (θ : Fin (k + j) → ℝ) (t : Fin d) (r r' : Fin m.data.numRows) col people,
      drawnUtility countingRng m.data m.args.altIdCol "person" (specColumns [1, 2] [("x", .allSame)]) col people s₀ θ t r =
      drawnUtility countingRng m.data m.args.altIdCol "person" (specColumns [1, 2] [("x", .allSame)]) col people s₀ θ t
        r' := by
  intro k j d s₀ θ t r r' col people
  have h1 : ∀ r, m.data.val "person" r = 1 := by
    rw [hd]; intro r; change Fin 2 at r; fin_cases r <;> simp [exSameX]
  have h2 : ∀ r, m.data.val "x" r = 1 := by
    rw [hd]; intro r; change Fin 2 at r; fin_cases r <;> simp [exSameX]
  simp only [drawnUtility, mixedUtility, h1, rowIndex, specColumns, SpecVal.columns, List.flatMap_cons, List.flatMap_nil,
    List.append_nil]
  generalize personCoefs (List.ofFn fun i => θ (Fin.castAdd j i)) (fun q => θ (Fin.natAdd k q)) (fun q => col ↑q)
    (fun j_1 => personDraw countingRng people d s₀ (↑j_1) 1 t) = L
  cases L <;> simp [ColDesc.value, h2]

private lemma exSame_panel {m : ChoiceModel ℝ} (hd : m.data = exSameX) : ∀ ids, (tableOf m ids).Panel "person" := by
  have h : ∀ r r', m.data.val "person" r = m.data.val "person" r' := by
    rw [hd]
    intro r r'
    change Fin 2 at r r'
    fin_cases r <;> fin_cases r' <;> rfl
  exact fun ids r r' _ => h r r'

private lemma exSame_stores {m : ChoiceModel ℝ} {env : Env ℝ}
    (hm : createChoiceModel env "Mixed Logit" exSameX exPeopleArgs = .ok m) (ha : m.args = exPeopleArgs)
    (hd : m.data = exSameX) (hn : m.indVarNames = [.str "x"]) (st : ℕ) (label : PyVal ℝ → String)
    (hlabel : label (.str "x") = "x") (sf : ℝ → ℝ) :
    (fitCall sf (mixedFitCall countingRng exStaying m (exMixedArgs (some 1) none) st) (freshFit label m)).2 = none := by
  obtain ⟨r, hr⟩ := exMixed_accepts hm ha hd hn st (some 1) none (.inl rfl)
  obtain ⟨chosen, hc⟩ : ∃ c, OneChoicePerObs m.data m.args.obsIdCol m.args.choiceCol c := by
    rw [ha, hd]
    exact ⟨_, exSame_choice⟩
  have hflat := exSame_flat hd
  have hpanel := exSame_panel hd
  have hspec : m.args.specification = encodeAll [("x", .allSame)] := by rw [ha]; rfl
  have hnm : ∀ ns, m.args.names = some ns → (ns.map Prod.fst).Nodup := by rw [ha]; intro ns h; cases h
  have hal : AltsOf m.data m.args.altIdCol [1, 2] := by rw [ha, hd]; exact exSame_lists.1
  obtain ⟨h1, -, -⟩ := mixed_fit_stores countingRng hm rfl hspec (by simp) hnm hc (exSame_name hn) label sf [] _ st
    rfl hr
  refine h1.2 ⟨flat_regular countingRng hm rfl hspec (by simp) hnm hal hc (exSame_name hn)
    (fun mixCol hmix => ?_) rfl (fun k => ?_) rfl one_ne_zero hr, ?_⟩
  · obtain rfl : "person" = mixCol := Option.some.inj hmix
    exact ⟨hpanel [], fun _ _ _ _ _ _ _ _ => hflat _ _ _ _ _ _ _ _ _ _⟩
  · rcases k with _ | _ | k <;> simp
  · rw [hn]
    simp only [List.mem_singleton, forall_eq, hlabel]
    decide

/-- **C111** (disagreement: the penalty and the standard errors). With a positive ridge penalty, the standard errors can
all be NaN: so they are in this fit, whose optimiser stays at zero. -/
theorem mixed_ridge_nan (env : Env ℝ) (henv : env.badCol = fun _ => false) (st : ℕ) (label : PyVal ℝ → String)
    (hlabel : label (.str "x") = "x") (sf : ℝ → ℝ) :
    ∃ m, createChoiceModel env "Mixed Logit" exSameX exPeopleArgs = .ok m ∧
      let c := mixedFitCall countingRng exStaying m (exMixedArgs (some 1) none) st
      (fitCall sf c (freshFit label m)).2 = none ∧
      (fitCall sf c (freshFit label m)).1.attrs.params = some ⟨["x", "Sigma x"], [0, 0]⟩ ∧
      (fitCall sf c (freshFit label m)).1.attrs.stdErrs = some ⟨["x", "Sigma x"], [none, none]⟩ := by
  obtain ⟨m, hm, ha, hd, hn⟩ := exPeople_model env henv (L := exSameX) rfl exSame_lists.1
  refine ⟨m, hm, ?_⟩
  intro c
  obtain ⟨chosen, hc⟩ : ∃ c, OneChoicePerObs m.data m.args.obsIdCol m.args.choiceCol c := by
    rw [ha, hd]
    exact ⟨_, exSame_choice⟩
  have hflat := exSame_flat hd
  have hpanel := exSame_panel hd
  have hspec : m.args.specification = encodeAll [("x", .allSame)] := by rw [ha]; rfl
  have hnm : ∀ ns, m.args.names = some ns → (ns.map Prod.fst).Nodup := by rw [ha]; intro ns h; cases h
  have hal : AltsOf m.data m.args.altIdCol [1, 2] := by rw [ha, hd]; exact exSame_lists.1
  have hids : AltsOf m.data m.args.obsIdCol [1] := by rw [ha, hd]; exact exSame_lists.2
  have hst := exSame_stores hm ha hd hn st label hlabel sf
  obtain ⟨mixCol, k, j, d, s₀, x, labels, H, h1, h2, -, -, hk, hj, hl, ⟨x₀, hx₀, hO⟩, hF, -, -, hD, hV, -, -⟩ :=
    mixed_fit_report_partial countingRng hm rfl hspec (by simp) hnm hal hids hc (exSame_name hn) exStaying_faithful
      label sf [] [] _ st rfl hst (by simp)
  obtain rfl : "person" = mixCol := Option.some.inj h1
  obtain rfl : k = 1 := hk.trans (by simp [specColumns, SpecVal.columns])
  obtain rfl : j = 1 := hj
  obtain rfl : [0, 0] = x₀ := Option.some.inj hx₀
  have hx : x = fun _ => 0 := by
    obtain ⟨f, h, rep, e1, e2, -⟩ := hO.run
    unfold exStaying at e1
    cases e1
    rw [← e2]
    funext i
    fin_cases i <;> rfl
  have hl' : List.ofFn labels = ["x", "Sigma x"] := by
    rw [hl, hn]
    simp [hlabel]
  have hmod : Moderate fun (q : Fin d) r => drawnUtility countingRng m.data m.args.altIdCol "person"
      (specColumns [1, 2] [("x", .allSame)]) (fun _ => 0) (firstAppearance (m.data.colList "person")) s₀ x q r := by
    intro t r
    rw [hx]
    simp [drawnUtility, mixedUtility, rowIndex, personCoefs, specColumns, SpecVal.columns]
  obtain ⟨S, hS, hH⟩ := (hD (hpanel _) hmod).hessian
  have hS0 : ∀ who ∈ firstAppearance (m.data.colList "person"), ∀ i, S who i = 0 := by
    intro who hwho i
    exact flat_score (tableOf m [1]) "person" (fun θ t r r' => hflat 1 1 d s₀ θ t r r' (fun _ => 0)
      (firstAppearance (m.data.colList "person"))) (hS who hwho) i
  have hH2 : H = (2 : ℝ) • (1 : Matrix (Fin 2) (Fin 2) ℝ) := by
    ext i j
    rw [hH, if_neg (by simp [exMixedArgs])]
    have : ((firstAppearance (m.data.colList "person")).map fun who => S who i * S who j).sum = 0 :=
      List.sum_eq_zero fun v hv => by
        obtain ⟨who, hwho, rfl⟩ := List.mem_map.1 hv
        rw [hS0 who hwho, zero_mul]
    rw [this]
    simp [exMixedArgs, Matrix.one_apply]
  have hinv : ∀ i, (-H⁻¹) i i < 0 := by
    have : H⁻¹ = (1 / 2 : ℝ) • (1 : Matrix (Fin 2) (Fin 2) ℝ) := by
      apply Matrix.inv_eq_right_inv
      rw [hH2]
      simp [smul_smul]
    intro i
    rw [this]
    simp [Matrix.one_apply]
  obtain ⟨se, hse, hi⟩ := hV.stdErrs
  refine ⟨hst, ?_, ?_⟩
  · refine hF.params.trans ?_
    rw [hl', hx]
    rfl
  · refine hse.trans ?_
    rw [hl', show se = fun _ => none from funext fun i => (hi i).2.1 (hinv i)]
    rfl

end

end Pylogit
