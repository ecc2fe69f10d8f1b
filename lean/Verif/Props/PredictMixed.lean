import Verif.Props.WholeFitMixed

/-!
# What `predict` of a mixed logit model returns for any table (C112)
-/

open Matrix

namespace Pylogit

open Spec

noncomputable section

/-! ## Helper lemmas -/

theorem design_other_table {env : Env ℝ} {df df' : Frame ℝ} {s : List (String × SpecVal ℝ)} {altCol : String}
    {names : Option (List (String × PyVal ℝ))} {cols nms} {alts : List ℝ}
    (h : createDesignMatrix env.fmt env.fmtList df (encodeAll s) altCol names = .ok (cols, nms))
    (ha : AltsOf df altCol alts) (ha' : AltsOf df' altCol alts) :
    (∃ res, createDesignMatrix env.fmt env.fmtList df' (encodeAll s) altCol names = .ok res) ↔
      altCol ∈ df'.columns ∧ ∀ kv ∈ s, kv.1 ∈ df'.columns := by
  obtain ⟨-, -, h3, h4, cs, hcs, h5, -, h6⟩ := (createDesignMatrix_ok_iff (altsOf_eq ha)).1 h
  have hspec : ∀ df : Frame ℝ, (∀ c ∈ (encodeAll s).map Prod.fst, c ∈ df.columns) ↔ ∀ kv ∈ s, kv.1 ∈ df.columns := by
    intro df
    simp [encodeAll]
  constructor
  · rintro ⟨⟨cols', nms'⟩, h'⟩
    obtain ⟨q1, q2, -⟩ := (createDesignMatrix_ok_iff (altsOf_eq ha')).1 h'
    exact ⟨q1, (hspec df').1 q2⟩
  · rintro ⟨q1, q2⟩
    rw [designColumns_encode] at hcs
    cases hcs
    have h5' : described env.fmt env.fmtList df' altCol (s.flatMap fun kv => kv.2.columns alts kv.1) ≠ [] := by
      simpa [described] using h5
    rcases h6 with ⟨e, -⟩ | ⟨ns, e, e'⟩
    · exact ⟨(_, _), (createDesignMatrix_ok_iff (altsOf_eq ha')).2
        ⟨q1, (hspec df').2 q2, h3, h4, _, designColumns_encode .., h5', rfl, Or.inl ⟨e, rfl⟩⟩⟩
    · exact ⟨(_, _), (createDesignMatrix_ok_iff (altsOf_eq ha')).2
        ⟨q1, (hspec df').2 q2, h3, h4, _, designColumns_encode .., h5', rfl, Or.inr ⟨ns, e, e'⟩⟩⟩

private lemma checks_iff (m : ChoiceModel ℝ) (df : Frame ℝ) (given : Option (List ℝ)) (rl : Bool) (cc : Option String)
    {mixCol : String} (hmix : m.args.mixingIdCol = some mixCol) :
    predictChecks m df (given.map fun x => (⟨x, none, none, none⟩ : ParamArrays)) rl cc = .ok () ↔
      m.args.altIdCol ∈ df.columns ∧ m.args.obsIdCol ∈ df.columns ∧ mixCol ∈ df.columns ∧
      (∀ x, given = some x → x.length = m.indVarNames.length) ∧ (rl = true ∨ cc ≠ none) := by
  have h1 : ∀ c, c ∈ df.columns → ensureColumnsInDataframe [c] df = .ok () := fun c h =>
    ensureColumns_ok.2 (by simpa using h)
  have h2 : ∀ c, ¬ c ∈ df.columns → ∃ e, ensureColumnsInDataframe [c] df = .error e := by
    intro c h
    cases hr : ensureColumnsInDataframe [c] df with
    | error e => exact ⟨e, rfl⟩
    | ok u => exact absurd (by simpa using ensureColumns_ok.1 hr) h
  unfold predictChecks
  by_cases ha : m.args.altIdCol ∈ df.columns
  swap
  · obtain ⟨e, he⟩ := h2 _ ha
    simp [he, bind, Except.bind, ha]
  by_cases hb : m.args.obsIdCol ∈ df.columns
  swap
  · obtain ⟨e, he⟩ := h2 _ hb
    simp [h1 _ ha, he, bind, Except.bind, hb]
  by_cases hc : mixCol ∈ df.columns
  swap
  · obtain ⟨e, he⟩ := h2 _ hc
    simp [h1 _ ha, h1 _ hb, he, bind, Except.bind, hc, hmix]
  simp only [h1 _ ha, h1 _ hb, h1 _ hc, hmix, bind, Except.bind, ha, hb, hc, true_and]
  cases given with
  | none =>
    simp only [Option.map_none]
    cases rl <;> cases cc <;> simp
  | some x =>
    by_cases hx : x.length = m.indVarNames.length
    · simp only [Option.map_some, checkParamListValidity, checkNumRows, hx, bind, Except.bind]
      cases rl <;> cases cc <;> simp [hx]
    · simp [checkParamListValidity, checkNumRows, hx, bind, Except.bind]

private lemma average_sum {R : Type} {d : ℕ} (S : Finset R) (y : R → ℝ) (p : Fin d → R → ℝ) :
    (average fun t => ∑ r ∈ S, y r * p t r) = ∑ r ∈ S, y r * average fun t => p t r := by
  simp only [average, Finset.mul_sum]
  rw [Finset.sum_comm]
  exact Finset.sum_congr rfl fun r _ => Finset.sum_congr rfl fun t _ => by ring

/-- Utilities under the coefficients in a list. -/
private def listUtility (g : Rng) (df : Frame ℝ) (altCol mixCol : String) (cds : List (ColDesc ℝ)) (col : ℕ → ℕ)
    (s₀ : g.State) (x : List ℝ) (k j d : ℕ) (t : Fin d) (r : Fin df.numRows) : ℝ :=
  drawnUtility g df altCol mixCol cds col (firstAppearance (df.colList mixCol)) s₀
    (fun i : Fin (k + j) => x.getD i 0) t r

private lemma predicted_parts (g : Rng) {df : Frame ℝ} {obsCol altCol mixCol : String} {cds : List (ColDesc ℝ)}
    {cols : List (Fin df.numRows → ℝ)} (hcols : cols = cds.map fun d => d.value df altCol)
    {posF : List (Fin cols.length)} {col : ℕ → ℕ} (hcol : ∀ j : Fin posF.length, (posF.get j).val = col j)
    {d : ℕ} (s₀ : g.State) (x : List ℝ) (cc : Option String) (rl : Bool) :
    let u := listUtility g df altCol mixCol cds col s₀ x cols.length posF.length d
    calcProbabilities (S := Empty) (I := Empty) (.vec (mixedCoefs cols.length posF.length x))
      (.three (expandedDesign (Matrix.of fun r (k : Fin cols.length) => cols[k] r)
        (fun j : Fin posF.length => normalStream g (originalOrderUniqueIds (df.colList mixCol)).length d j s₀)
        posF.get (df.rowsToObs mixCol))) (df.val altCol) (df.rowsToObs obsCol) (df.rowsToAlts altCol) mnlTransform none
      none ((cc.map df.val).map fun y => Matrix.of fun r o => df.rowsToObs obsCol r o * y r) rl =
    match cc, rl with
    | none, false => .error .valueError
    | none, true => .ok (.long fun r t => clippedLogit (df.val obsCol) (u t) r)
    | some c, true => .ok (.both (fun o t => ∑ r with df.val obsCol r =
        (originalOrderUniqueIds (df.colList obsCol)).get o, df.val c r * clippedLogit (df.val obsCol) (u t) r)
        fun r t => clippedLogit (df.val obsCol) (u t) r)
    | some c, false => .ok (.chosen fun o t => ∑ r with df.val obsCol r =
        (originalOrderUniqueIds (df.colList obsCol)).get o, df.val c r * clippedLogit (df.val obsCol) (u t) r) := by
  intro u
  have hco : mixedCoefs cols.length posF.length x =
      (fun i : Fin (cols.length + posF.length) => x.getD i 0) ∘ twoParts cols.length posF.length := by
    funext q
    cases q <;> rfl
  have hsum : ∀ t, (fun r => ∑ q, expandedDesign (Matrix.of fun r (k : Fin cols.length) => cols[k] r)
        (fun j : Fin posF.length => normalStream g (originalOrderUniqueIds (df.colList mixCol)).length d j s₀)
        posF.get (df.rowsToObs mixCol) r t q * mixedCoefs cols.length posF.length x q) = u t := by
    intro t
    funext r
    rw [hco]
    exact drawn_utility g hcols hcol s₀ _ t r
  have hlong : ∀ t, longProbs (df.rowsToObs obsCol) (u t) = clippedLogit (df.val obsCol) (u t) :=
    fun t => frame_longProbs _ _ _
  cases cc with
  | none =>
    cases rl
    · simp [calcProbabilities]
    · simp only [calcProbabilities, sysUtilities, bind, Except.bind, mnlTransform, Option.map_none, Option.isNone_none,
        Bool.not_true, Bool.and_false, Bool.false_eq_true, if_false, hsum, hlong]
  | some c =>
    have hch := fun t o => chosen_sum df obsCol c (u t) o
    cases rl <;>
    simp only [calcProbabilities, sysUtilities, bind, Except.bind, mnlTransform, Option.map_some, Option.isNone_some,
      Bool.false_and, Bool.false_eq_true, if_false, hsum, hlong, hch]

/-! ## C112: what `predict` of a mixed logit returns -/

/-- **C112**. `predict` of a mixed logit model, on a table with the alternatives of the model's table, with stored or given
parameters: it succeeds exactly when the table has the columns it needs and at least one row, there is a mixed variable,
the number of draws is a positive integer, the seed - if any - is a positive integer the generator accepts, there is
one parameter per described column and mixed variable, a given list has as many entries as the model has names, and
exactly one of `return_long_probs` and `choice_col` is asked for. It then returns the probabilities of all rows, averaged
over the draws - the logit probabilities under the utilities with the coefficients of the row's person - or, per
observation in order of first appearance, the averaged probability of its chosen rows. -/
theorem mixed_predict_iff (g : Rng) {env : Env ℝ} {df : Frame ℝ} {a : ModelArgs ℝ} {m : ChoiceModel ℝ}
    (hm : createChoiceModel env "Mixed Logit" df a = .ok m) {vars : List String} (hvars : a.mixingVars = some vars)
    {s : List (String × SpecVal ℝ)} (hspec : m.args.specification = encodeAll s) (hkeys : (s.map Prod.fst).Nodup)
    (hnm : ∀ ns, m.args.names = some ns → (ns.map Prod.fst).Nodup)
    {alts : List ℝ} (ha : AltsOf m.data m.args.altIdCol alts)
    {col : ℕ → ℕ} (hname : ∀ j (h : j < vars.length), m.indVarNames[col j]? = some (.str vars[j]) ∧
      ∀ i < col j, m.indVarNames[i]? ≠ some (.str vars[j]))
    {L : Frame ℝ} (hL : AltsOf L m.args.altIdCol alts) (names : List String) (stored : ParamArrays)
    (given : Option (List ℝ)) (rl : Bool) (cc : Option String) (numDraws : IntArg) (seed : Option IntArg) (st : g.State)
    (res : MixedPrediction L m.args.obsIdCol) :
    (∃ s', predictMixedFrame env g m names stored L (given.map fun x => ⟨x, none, none, none⟩) rl cc numDraws seed st =
      .ok (res, s')) ↔
    ∃ (mixCol : String) (d : ℕ) (s₀ : g.State) (θ : Fin ((specColumns alts s).length + vars.length) → ℝ),
      let p := averagedProb L m.args.obsIdCol fun t : Fin d =>
        drawnUtility g L m.args.altIdCol mixCol (specColumns alts s) col (firstAppearance (L.colList mixCol)) s₀ θ t
      a.mixingIdCol = some mixCol ∧ vars ≠ [] ∧ 0 < L.numRows ∧
      (∀ c, c = m.args.altIdCol ∨ c = m.args.obsIdCol ∨ c = mixCol ∨ (∃ kv ∈ s, kv.1 = c) → c ∈ L.columns) ∧
      numDraws = .int d ∧ 0 < d ∧ DrawsFrom g seed st s₀ ∧
      List.ofFn θ = given.getD stored.index ∧ (∀ x, given = some x → x.length = names.length) ∧
      ((rl = true ∧ cc = none ∧ res = .inl p) ∨
        (rl = false ∧ ∃ c ∈ L.columns, cc = some c ∧ ∃ v, res = .inr v ∧
          List.ofFn v = (firstAppearance (L.colList m.args.obsIdCol)).map fun i =>
            ∑ r with L.val m.args.obsIdCol r = i, L.val c r * p r)) := by
  obtain ⟨-, -, hmi⟩ := mixed_settings hm
  have hdes := (built_own hm).1.design
  rw [hspec] at hdes
  have hcols : m.design = (specColumns alts s).map fun d => d.value m.data m.args.altIdCol := design_entries ha hdes
  have hlen : m.design.length = (specColumns alts s).length := by rw [hcols, List.length_map]
  have hnames : m.indVarNames.length = m.design.length :=
    one_name_per_column (by simpa [encodeAll, Function.comp_def] using hkeys) hnm hdes
  obtain ⟨posF, hpos, hpl, hpc⟩ := mixed_positions hm hvars hnames hname
  have hdL := design_other_table hdes ha hL
  -- the design of the table
  have hcolsL : ∀ {cols nms}, createDesignMatrix env.fmt env.fmtList L (encodeAll s) m.args.altIdCol m.args.names =
      .ok (cols, nms) → cols = (specColumns alts s).map fun d => d.value L m.args.altIdCol :=
    fun h => design_entries hL h
  have hposL : ∀ {cols : List (Fin L.numRows → ℝ)}, cols.length = m.design.length → ∃ posL : List (Fin cols.length),
      m.mixingPos = some (posL.map Fin.val) ∧ posL.length = vars.length ∧
      ∀ j : Fin posL.length, (posL.get j).val = col j := by
    intro cols e
    refine ⟨posF.map (Fin.cast e.symm), by rw [hpos, List.map_map]; rfl, by simpa using hpl, fun j => ?_⟩
    have := hpc (j.cast (by simp))
    simpa using this
  have hcast : ∀ {mixCol : String} {d : ℕ} (s₀ : g.State) (x : List ℝ) {k j : ℕ}, k = (specColumns alts s).length →
      j = vars.length → ∀ θ : Fin ((specColumns alts s).length + vars.length) → ℝ, List.ofFn θ = x →
      listUtility g L m.args.altIdCol mixCol (specColumns alts s) col s₀ x k j d = fun t =>
        drawnUtility g L m.args.altIdCol mixCol (specColumns alts s) col (firstAppearance (L.colList mixCol)) s₀ θ t := by
    rintro mixCol d s₀ x k j rfl rfl θ rfl
    unfold listUtility
    have : (fun i : Fin ((specColumns alts s).length + vars.length) => (List.ofFn θ).getD i 0) = θ := by
      funext i
      simp
    rw [this]
  have hmean : ∀ {d : ℕ} (x : Fin d → ℝ), drawMean x = average x := by
    intro d x
    rw [drawMean, average, div_eq_inv_mul]
  constructor
  · rintro ⟨s', h⟩
    unfold predictMixedFrame at h
    simp only [bind, Except.bind] at h
    split at h
    · cases h
    rename_i u hch
    cases u
    split at h
    · cases h
    rename_i cn hcn
    obtain ⟨cols, nms⟩ := cn
    split at h
    · cases h
    rename_i choice hchoice
    split at h
    · cases h
    rename_i X hX
    obtain ⟨X, s1⟩ := X
    split_ifs at h with hlx
    rw [not_not] at hlx
    rw [hspec] at hcn
    have hc := hcolsL hcn
    have hcl : cols.length = (specColumns alts s).length := by rw [hc, List.length_map]
    obtain ⟨posL, hposl, hpll, hpcl⟩ := hposL (hcl.trans hlen.symm)
    obtain ⟨mixCol, d, s₀, q1, q2, q3, q4, q5, q6, q7, -, q9⟩ := (drawn_design_iff g hposl ..).1 hX
    subst q9
    have hin := (checks_iff { m with indVarNames := names.map .str } L given rl cc (mixCol := mixCol) q1).1 hch
    obtain ⟨b1, b2⟩ := choiceArray_ok.1 hchoice
    obtain ⟨b3, b4⟩ := hdL.1 ⟨_, hcn⟩
    subst b2
    have hpp := predicted_parts g (obsCol := m.args.obsIdCol) (mixCol := mixCol) (d := d) hc hpcl s₀
      (((given.map fun x => (⟨x, none, none, none⟩ : ParamArrays)).getD stored).index) cc rl
    have hidx : ((given.map fun x => (⟨x, none, none, none⟩ : ParamArrays)).getD stored).index = given.getD stored.index := by
      cases given <;> rfl
    simp only at hpp hlx h
    rw [hpp] at h
    rw [hidx] at hlx h
    rw [hpll, hcl] at hlx
    obtain ⟨θ, hθ⟩ : ∃ θ : Fin ((specColumns alts s).length + vars.length) → ℝ, List.ofFn θ = given.getD stored.index := by
      rw [← hlx]
      exact ⟨_, List.ofFn_get _⟩
    have hu := hcast (mixCol := mixCol) (d := d) s₀ _ hcl hpll θ hθ
    refine ⟨mixCol, d, s₀, θ, hmi ▸ q1, ?_, q3, ?_, q5, q6, q7, hθ, ?_, ?_⟩
    · rw [← List.length_pos_iff, ← hpll]
      exact List.length_pos_iff.2 q4
    · rintro c (rfl | rfl | rfl | ⟨kv, hkv, rfl⟩)
      · exact hin.1
      · exact hin.2.1
      · exact q2
      · exact b4 kv hkv
    · simpa using hin.2.2.2.1
    · cases cc with
      | none =>
        cases rl with
        | false => simp at h
        | true =>
          simp only [Except.ok.injEq, Prod.mk.injEq] at h
          refine Or.inl ⟨rfl, rfl, h.1.symm.trans (congrArg Sum.inl (funext fun r => ?_))⟩
          rw [hmean, hu]
          rfl
      | some c =>
        cases rl with
        | true => simp at h
        | false =>
          simp only [Except.ok.injEq, Prod.mk.injEq] at h
          refine Or.inr ⟨rfl, c, by simpa using b1, rfl, _, h.1.symm, ?_⟩
          rw [← unique_ids_eq_firstAppearance (L.colList m.args.obsIdCol)]
          refine List.ext_getElem (by simp) fun i h1 h2 => ?_
          simp only [List.getElem_ofFn, List.getElem_map]
          simp only [hmean, hu, average_sum]
          rfl
  · rintro ⟨mixCol, d, s₀, θ, q1, q2, q3, q4, q5, q6, q7, hθ, q8, q9⟩
    obtain ⟨⟨cols, nms⟩, hcn⟩ := hdL.2 ⟨q4 _ (Or.inl rfl), fun kv hkv => q4 _ (Or.inr (Or.inr (Or.inr ⟨kv, hkv, rfl⟩)))⟩
    have hc := hcolsL hcn
    have hcl : cols.length = (specColumns alts s).length := by rw [hc, List.length_map]
    obtain ⟨posL, hposl, hpll, hpcl⟩ := hposL (hcl.trans hlen.symm)
    have hX := (drawn_design_iff g hposl numDraws seed st _ _).2 ⟨mixCol, d, s₀, hmi.trans q1, q4 _ (by tauto), q3,
      by rw [← List.length_pos_iff, hpll]; exact List.length_pos_iff.2 q2, q5, q6, q7, rfl, rfl⟩
    have hch := (checks_iff { m with indVarNames := names.map .str } L given rl cc (mixCol := mixCol) (hmi.trans q1)).2
      ⟨q4 _ (by tauto), q4 _ (by tauto), q4 _ (by tauto), by simpa using q8, by
        rcases q9 with ⟨e, -⟩ | ⟨-, c, -, e, -⟩
        · exact Or.inl e
        · exact Or.inr (by simp [e])⟩
    have hchoice : choiceArray L cc = .ok (cc.map L.val) := choiceArray_ok.2 ⟨by
        rcases q9 with ⟨-, e, -⟩ | ⟨-, c, hcm, e, -⟩
        · simp [e]
        · simpa [e] using hcm, rfl⟩
    have hidx : ((given.map fun x => (⟨x, none, none, none⟩ : ParamArrays)).getD stored).index = given.getD stored.index := by
      cases given <;> rfl
    have hpp := predicted_parts g (obsCol := m.args.obsIdCol) (mixCol := mixCol) (d := d) hc hpcl s₀
      (given.getD stored.index) cc rl
    have hu := hcast (mixCol := mixCol) (d := d) s₀ _ hcl hpll θ hθ
    have hlx : ¬ (((given.map fun x => (⟨x, none, none, none⟩ : ParamArrays)).getD stored).index.length ≠
        cols.length + posL.length) := by
      rw [hidx, ← hθ, List.length_ofFn, hpll, hcl, not_not]
    rw [← hspec] at hcn
    unfold predictMixedFrame
    simp only [hch, hcn, hchoice, hX, bind, Except.bind, if_neg hlx]
    simp only at hpp
    simp only [hidx]
    rw [hpp, hu]
    rcases q9 with ⟨rfl, rfl, hres⟩ | ⟨rfl, c, -, rfl, v, hres, hv⟩
    · rw [hres]
      simp only [hmean]
      exact ⟨_, rfl⟩
    · rw [hres]
      have hv' : v = fun o => average fun t : Fin d => ∑ r with L.val m.args.obsIdCol r =
          (originalOrderUniqueIds (L.colList m.args.obsIdCol)).get o, L.val c r *
            clippedLogit (L.val m.args.obsIdCol) (drawnUtility g L m.args.altIdCol mixCol (specColumns alts s) col
              (firstAppearance (L.colList mixCol)) s₀ θ t) r := by
        refine List.ofFn_injective (hv.trans ?_)
        rw [← unique_ids_eq_firstAppearance (L.colList m.args.obsIdCol)]
        refine List.ext_getElem (by simp) fun i h1 h2 => ?_
        simp only [List.getElem_ofFn, List.getElem_map, average_sum]
        rfl
      simp only [hmean, hv']
      exact ⟨_, rfl⟩

/-- **C112** (disagreement). Before a mixed logit model is fitted, `predict` with a `param_list` never succeeds: the list
is refused unless it has as many coefficients as the model has names, and those for the standard deviations are only
added by a fit. -/
theorem mixed_predict_unfitted (g : Rng) {env : Env ℝ} {df : Frame ℝ} {a : ModelArgs ℝ} {m : ChoiceModel ℝ}
    (hm : createChoiceModel env "Mixed Logit" df a = .ok m) {vars : List String} (hvars : a.mixingVars = some vars)
    {s : List (String × SpecVal ℝ)} (hspec : m.args.specification = encodeAll s) (hkeys : (s.map Prod.fst).Nodup)
    (hnm : ∀ ns, m.args.names = some ns → (ns.map Prod.fst).Nodup)
    {alts : List ℝ} (ha : AltsOf m.data m.args.altIdCol alts)
    {col : ℕ → ℕ} (hname : ∀ j (h : j < vars.length), m.indVarNames[col j]? = some (.str vars[j]) ∧
      ∀ i < col j, m.indVarNames[i]? ≠ some (.str vars[j]))
    {L : Frame ℝ} (hL : AltsOf L m.args.altIdCol alts) (label : PyVal ℝ → String) (stored : ParamArrays)
    (given : List ℝ) (rl : Bool) (cc : Option String) (numDraws : IntArg) (seed : Option IntArg) (st : g.State)
    (res : MixedPrediction L m.args.obsIdCol × g.State) :
    predictMixedFrame env g m (freshFit label m).attrs.names.indVarNames stored L (some ⟨given, none, none, none⟩) rl cc
      numDraws seed st ≠ .ok res := by
  intro h
  obtain ⟨mixCol, d, s₀, θ, -, h2, -, -, -, -, -, h3, h4, -⟩ := (mixed_predict_iff g hm hvars hspec hkeys hnm ha hname
    hL (freshFit label m).attrs.names.indVarNames stored (some given) rl cc numDraws seed st res.1).1 ⟨res.2, h⟩
  have hdes := (built_own hm).1.design
  rw [hspec] at hdes
  have hcols : m.design = (specColumns alts s).map fun d => d.value m.data m.args.altIdCol := design_entries ha hdes
  have hnames : m.indVarNames.length = m.design.length :=
    one_name_per_column (by simpa [encodeAll, Function.comp_def] using hkeys) hnm hdes
  have e1 := congrArg List.length h3
  have e2 := h4 given rfl
  have e3 : (freshFit label m).attrs.names.indVarNames.length = m.indVarNames.length := by
    simp [freshFit, modelNames]
  rw [hcols, List.length_map] at hnames
  simp only [List.length_ofFn, Option.getD_some] at e1
  have := List.length_pos_iff.2 h2
  omega

private lemma drawnUtility_local {df df' : Frame ℝ} {e : Fin df.numRows → Fin df'.numRows}
    (hc : ∀ c r, df.val c r = df'.val c (e r)) (g : Rng) (altCol mixCol : String) (cds : List (ColDesc ℝ)) (col : ℕ → ℕ)
    (people : List ℝ) (s₀ : g.State) {k j d : ℕ} (θ : Fin (k + j) → ℝ) (t : Fin d) (r : Fin df.numRows) :
    drawnUtility g df altCol mixCol cds col people s₀ θ t r = drawnUtility g df' altCol mixCol cds col people s₀ θ t (e r) := by
  have hv : ∀ d : ColDesc ℝ, d.value df altCol r = d.value df' altCol (e r) := by
    intro d
    cases d <;> simp [ColDesc.value, hc]
  simp only [drawnUtility, mixedUtility, rowIndex, hv, hc]

/-- **C112**. Let a table hold some of the observations of another one, in any order, and let both have the same
alternatives and the same people, first mentioned in the same order.  If predictions of the larger table with the same
draws succeed, so do those of the smaller one, and the same rows and observations get the same probabilities.  Missing
from what one expects: tables with different people; see `mixed_predict_depends_on_others`. -/
theorem mixed_predict_local_partial (g : Rng) {env : Env ℝ} {df : Frame ℝ} {a : ModelArgs ℝ} {m : ChoiceModel ℝ}
    (hm : createChoiceModel env "Mixed Logit" df a = .ok m) {vars : List String} (hvars : a.mixingVars = some vars)
    {s : List (String × SpecVal ℝ)} (hspec : m.args.specification = encodeAll s) (hkeys : (s.map Prod.fst).Nodup)
    (hnm : ∀ ns, m.args.names = some ns → (ns.map Prod.fst).Nodup)
    {alts : List ℝ} (ha : AltsOf m.data m.args.altIdCol alts)
    {col : ℕ → ℕ} (hname : ∀ j (h : j < vars.length), m.indVarNames[col j]? = some (.str vars[j]) ∧
      ∀ i < col j, m.indVarNames[i]? ≠ some (.str vars[j]))
    {L L' : Frame ℝ} (hL : AltsOf L m.args.altIdCol alts) (hL' : AltsOf L' m.args.altIdCol alts)
    {e : Fin L.numRows → Fin L'.numRows} (hp : PartOf m.args.obsIdCol L L' e)
    (hpeople : ∀ c, a.mixingIdCol = some c → firstAppearance (L.colList c) = firstAppearance (L'.colList c))
    (names : List String) (stored : ParamArrays) (given : Option (List ℝ)) (rl : Bool) (cc : Option String)
    (numDraws : IntArg) (seed : Option IntArg) (st : g.State) {res' : MixedPrediction L' m.args.obsIdCol} {s' : g.State}
    (h : predictMixedFrame env g m names stored L' (given.map fun x => ⟨x, none, none, none⟩) rl cc numDraws seed st =
      .ok (res', s')) :
    ∃ res s'', predictMixedFrame env g m names stored L (given.map fun x => ⟨x, none, none, none⟩) rl cc numDraws seed
        st = .ok (res, s'') ∧
      ((∃ v v', res = .inl v ∧ res' = .inl v' ∧ ∀ r, v r = v' (e r)) ∨
        ∃ v v', res = .inr v ∧ res' = .inr v' ∧ ∀ o o', (firstAppearance (L.colList m.args.obsIdCol))[o.val]? =
          (firstAppearance (L'.colList m.args.obsIdCol))[o'.val]? → v o = v' o') := by
  obtain ⟨mixCol, d, s₀, θ, q1, q2, q3, q4, q5, q6, q7, q8, q9, q10⟩ := (mixed_predict_iff g hm hvars hspec hkeys hnm ha
    hname hL' names stored given rl cc numDraws seed st res').1 ⟨s', h⟩
  have hpe := hpeople _ q1
  have hrows : 0 < L.numRows := by
    have h1 : L'.val mixCol ⟨0, q3⟩ ∈ firstAppearance (L.colList mixCol) := by
      rw [hpe, ← unique_ids_eq_firstAppearance, mem_originalOrder]
      exact mem_colList.2 ⟨_, rfl⟩
    rw [← unique_ids_eq_firstAppearance, mem_originalOrder] at h1
    obtain ⟨r, -⟩ := mem_colList.1 h1
    exact (Nat.zero_le _).trans_lt r.2
  have hprob : ∀ r, averagedProb L m.args.obsIdCol (fun t : Fin d => drawnUtility g L m.args.altIdCol mixCol
      (specColumns alts s) col (firstAppearance (L.colList mixCol)) s₀ θ t) r =
      averagedProb L' m.args.obsIdCol (fun t : Fin d => drawnUtility g L' m.args.altIdCol mixCol
      (specColumns alts s) col (firstAppearance (L'.colList mixCol)) s₀ θ t) (e r) := by
    intro r
    unfold averagedProb
    rw [hpe]
    refine congrArg average (funext fun t => ?_)
    rw [← clippedLogit_local hp]
    refine congrFun (congrArg (clippedLogit _) (funext fun q => ?_)) r
    exact drawnUtility_local hp.cells g _ _ _ _ _ _ _ _ _
  have hin : ∀ c, c = m.args.altIdCol ∨ c = m.args.obsIdCol ∨ c = mixCol ∨ (∃ kv ∈ s, kv.1 = c) → c ∈ L.columns :=
    fun c hc => (hp.columns c).2 (q4 c hc)
  rcases q10 with ⟨e1, e2, e3⟩ | ⟨e1, c, e2, e3, v', e4, e5⟩
  · obtain ⟨s'', hs''⟩ := (mixed_predict_iff g hm hvars hspec hkeys hnm ha hname hL names stored given rl cc numDraws seed
      st _).2 ⟨mixCol, d, s₀, θ, q1, q2, hrows, hin, q5, q6, q7, q8, q9, Or.inl ⟨e1, e2, rfl⟩⟩
    exact ⟨_, s'', hs'', Or.inl ⟨_, _, rfl, e3, hprob⟩⟩
  · have hl : ∀ f : ℝ → ℝ, ∃ v : Fin (originalOrderUniqueIds (L.colList m.args.obsIdCol)).length → ℝ,
        List.ofFn v = (firstAppearance (L.colList m.args.obsIdCol)).map f := by
      intro f
      rw [← unique_ids_eq_firstAppearance]
      exact ⟨fun o => f ((originalOrderUniqueIds (L.colList m.args.obsIdCol)).get o),
        List.ext_getElem (by simp) fun i h1 h2 => by simp⟩
    obtain ⟨v, hv⟩ := hl fun i => ∑ r with L.val m.args.obsIdCol r = i, L.val c r *
      averagedProb L m.args.obsIdCol (fun t : Fin d => drawnUtility g L m.args.altIdCol mixCol (specColumns alts s) col
        (firstAppearance (L.colList mixCol)) s₀ θ t) r
    obtain ⟨s'', hs''⟩ := (mixed_predict_iff g hm hvars hspec hkeys hnm ha hname hL names stored given rl cc numDraws seed
      st (.inr v)).2 ⟨mixCol, d, s₀, θ, q1, q2, hrows, hin, q5, q6, q7, q8, q9,
        Or.inr ⟨e1, c, (hp.columns c).2 e2, e3, v, rfl, hv⟩⟩
    refine ⟨_, s'', hs'', Or.inr ⟨v, v', rfl, e4, fun o o' ho => ?_⟩⟩
    have g1 : ∀ {F : Frame ℝ} (w : Fin (originalOrderUniqueIds (F.colList m.args.obsIdCol)).length → ℝ) (f : ℝ → ℝ),
        List.ofFn w = (firstAppearance (F.colList m.args.obsIdCol)).map f →
        ∀ o, w o = f ((originalOrderUniqueIds (F.colList m.args.obsIdCol)).get o) := by
      intro F w f hw o
      rw [← unique_ids_eq_firstAppearance] at hw
      have := congrArg (fun l => l[o.val]?) hw
      simpa using this
    rw [g1 v _ hv, g1 v' _ e5]
    refine chosen_local hp c hprob ?_
    rw [← unique_ids_eq_firstAppearance, ← unique_ids_eq_firstAppearance] at ho
    simpa using ho

/-- The rows of the second person in `exPeople`. -/
def exSecond : Frame ℝ where
  columns := ["obs", "alt", "choice", "person", "x"]
  numRows := 2
  val := fun c =>
    if c = "obs" then ![2, 2]
    else if c = "alt" then ![1, 2]
    else if c = "choice" then ![0, 1]
    else if c = "person" then ![2, 2]
    else ![1, 0]

theorem exPeople_alts : AltsOf exPeople "alt" [1, 2] := by
  refine ⟨by norm_num, fun a => ?_⟩
  simp only [List.mem_cons, List.not_mem_nil, or_false]
  constructor
  · rintro (rfl | rfl)
    · exact ⟨(0 : Fin 4), rfl⟩
    · exact ⟨(1 : Fin 4), rfl⟩
  · rintro ⟨r, rfl⟩
    change Fin 4 at r
    change ((![1, 2, 1, 2] : Fin 4 → ℝ) r = 1) ∨ (![1, 2, 1, 2] : Fin 4 → ℝ) r = 2
    fin_cases r <;> simp

private lemma exSecond_alts : AltsOf exSecond "alt" [1, 2] := by
  refine ⟨by norm_num, fun a => ?_⟩
  simp only [List.mem_cons, List.not_mem_nil, or_false]
  constructor
  · rintro (rfl | rfl)
    · exact ⟨(0 : Fin 2), rfl⟩
    · exact ⟨(1 : Fin 2), rfl⟩
  · rintro ⟨r, rfl⟩
    change Fin 2 at r
    change ((![1, 2] : Fin 2 → ℝ) r = 1) ∨ (![1, 2] : Fin 2 → ℝ) r = 2
    fin_cases r <;> simp

/-- The positions of the rows of `exSecond` in `exPeople`. -/
def exSecondRows : Fin exSecond.numRows → Fin exPeople.numRows := (![2, 3] : Fin 2 → Fin 4)

private lemma exSecond_part : PartOf "obs" exSecond exPeople exSecondRows := by
  refine ⟨fun c => Iff.rfl, ?_, fun c r => ?_, fun r r' h => ?_⟩
  · intro x y h
    change Fin 2 at x y
    change (![2, 3] : Fin 2 → Fin 4) x = (![2, 3] : Fin 2 → Fin 4) y at h
    fin_cases x <;> fin_cases y <;> first | rfl | simp at h
  · change Fin 2 at r
    simp only [exSecond, exPeople, exSecondRows]
    split_ifs <;> fin_cases r <;> rfl
  · change Fin 2 at r
    change Fin 4 at r'
    change (![1, 1, 2, 2] : Fin 4 → ℝ) r' = (![2, 2] : Fin 2 → ℝ) r at h
    fin_cases r' <;> fin_cases r <;> first | (norm_num at h; done) | exact ⟨(0 : Fin 2), rfl⟩ | exact ⟨(1 : Fin 2), rfl⟩

private lemma exMean_utility {L : Frame ℝ} (people : List ℝ) (st : ℕ) (t : Fin 1) (r : Fin L.numRows) :
    drawnUtility countingRng L "alt" "person" (specColumns [1, 2] [("x", SpecVal.allSame)]) (fun _ => 0) people st
      (k := (specColumns [1, 2] [("x", (SpecVal.allSame : SpecVal ℝ))]).length) (j := ["x"].length)
      (fun i => if i.val = 0 then 0 else 1) t r =
      L.val "x" r * personDraw countingRng people 1 st 0 (L.val "person" r) t := by
  have hc : (List.ofFn fun i : Fin (specColumns [1, 2] [("x", (SpecVal.allSame : SpecVal ℝ))]).length =>
      if (Fin.castAdd ["x"].length i).val = 0 then (0 : ℝ) else 1) = [0] := by
    simp [specColumns, SpecVal.columns]
  have hs : (fun q : Fin ["x"].length => if (Fin.natAdd
      (specColumns [1, 2] [("x", (SpecVal.allSame : SpecVal ℝ))]).length q).val = 0 then (0 : ℝ) else 1) = fun _ => 1 := by
    funext q
    simp [specColumns, SpecVal.columns]
  unfold drawnUtility
  rw [hc, hs]
  simp [mixedUtility, rowIndex, personCoefs, specColumns, SpecVal.columns, ColDesc.value]

private lemma exMean_predicts (env : Env ℝ) {m : ChoiceModel ℝ}
    (hm : createChoiceModel env "Mixed Logit" exPeople exPeopleArgs = .ok m) (hargs : m.args = exPeopleArgs)
    (hd : m.data = exPeople) (hn : m.indVarNames = [.str "x"]) {L : Frame ℝ}
    (hcol : L.columns = ["obs", "alt", "choice", "person", "x"]) (hL : AltsOf L "alt" [1, 2]) (hrows : 0 < L.numRows)
    (names : List String) (st : ℕ) :
    ∃ v s', predictMixedFrame env countingRng m names ⟨[0, 1], none, none, none⟩ L none true none (.int 1)
      (some (.int 1)) st = .ok (.inl v, s') ∧ ∀ r, v r = clippedLogit (L.val "obs") (fun r => L.val "x" r *
        personDraw countingRng (firstAppearance (L.colList "person")) 1 (1 : ℕ) 0 (L.val "person" r) (0 : Fin 1)) r := by
  have key := mixed_predict_iff countingRng hm (vars := ["x"]) rfl (s := [("x", .allSame)]) (by rw [hargs]; rfl) (by simp)
    (by rw [hargs]; intro ns h; cases h) (alts := [1, 2]) (by rw [hargs, hd]; exact exPeople_alts) (col := fun _ => 0)
    (by
      intro j hj
      obtain rfl : j = 0 := by simpa using hj
      simp [hn])
    (L := L) (by rw [hargs]; exact hL) names ⟨[0, 1], none, none, none⟩ none true none (.int 1) (some (.int 1)) st
  obtain ⟨s', hs'⟩ := (key (.inl _)).2 ⟨"person", 1, (1 : ℕ), fun i => if i.val = 0 then 0 else 1, rfl, by simp, hrows, by
      rw [hcol, hargs]
      simp [exPeopleArgs], rfl, one_pos, Or.inr ⟨1, one_pos, rfl, by simp [countingRng]⟩, by
      simp [specColumns, SpecVal.columns], by simp, Or.inl ⟨rfl, rfl, rfl⟩⟩
  refine ⟨_, s', hs', fun r => ?_⟩
  rw [hargs]
  have hu := fun t : Fin 1 => funext fun r => exMean_utility (L := L) (firstAppearance (L.colList "person")) 1 t r
  simp only [averagedProb, average, Fintype.card_fin, Finset.univ_unique, Finset.sum_singleton, Nat.cast_one, inv_one,
    one_mul]
  refine congrFun (congrArg (clippedLogit (L.val "obs")) ?_) r
  exact hu 0

/-- **C112** (disagreement). With the same seed, the prediction for the rows of a person depends on who else is in the
table: draws belong to positions in the list of people, not to people. -/
theorem mixed_predict_depends_on_others (env : Env ℝ) (henv : env.badCol = fun _ => false) (names : List String)
    (st : ℕ) : ∃ m v v' s' s'', createChoiceModel env "Mixed Logit" exPeople exPeopleArgs = .ok m ∧
      PartOf m.args.obsIdCol exSecond exPeople exSecondRows ∧
      predictMixedFrame env countingRng m names ⟨[0, 1], none, none, none⟩ exSecond none true none (.int 1)
        (some (.int 1)) st = .ok (.inl v, s') ∧
      predictMixedFrame env countingRng m names ⟨[0, 1], none, none, none⟩ exPeople none true none (.int 1)
        (some (.int 1)) st = .ok (.inl v', s'') ∧ v (0 : Fin 2) ≠ v' (exSecondRows (0 : Fin 2)) := by
  obtain ⟨m, hm, ha, hd, hn⟩ := exPeople_model env henv (L := exPeople) rfl exPeople_alts
  obtain ⟨v, s', h1, h2⟩ := exMean_predicts env hm ha hd hn (L := exSecond) rfl exSecond_alts (by decide) names st
  obtain ⟨v', s'', h3, h4⟩ := exMean_predicts env hm ha hd hn (L := exPeople) rfl exPeople_alts (by decide) names st
  refine ⟨m, v, v', s', s'', hm, by rw [ha]; exact exSecond_part, h1, h3, ?_⟩
  have hp1 : firstAppearance (exSecond.colList "person") = [2] := by
    simp [exSecond, Frame.colList, firstAppearance]
  have hp2 : firstAppearance (exPeople.colList "person") = [1, 2] := by
    simp [exPeople, Frame.colList, firstAppearance]
  have hd1 : personDraw countingRng [2] 1 (1 : ℕ) 0 2 (0 : Fin 1) = 1 := by
    unfold personDraw
    rw [dif_pos (by simp)]
    simp [normalStream, countingRng]
  have hd2 : personDraw countingRng [1, 2] 1 (1 : ℕ) 0 2 (0 : Fin 1) = 2 := by
    unfold personDraw
    rw [dif_pos (by simp [List.idxOf_cons])]
    simp [normalStream, countingRng, List.idxOf_cons]
    norm_num
  have hlog : ∀ u : Fin 2 → ℝ, clippedLogit (![2, 2] : Fin 2 → ℝ) u 0 =
      Real.exp (clip700 (u 0)) / (Real.exp (clip700 (u 0)) + Real.exp (clip700 (u 1))) := by
    intro u
    have hf : (Finset.univ.filter fun s => (![2, 2] : Fin 2 → ℝ) s = (![2, 2] : Fin 2 → ℝ) 0) = Finset.univ :=
      Finset.filter_true_of_mem fun s _ => by fin_cases s <;> rfl
    simp only [clippedLogit, logitProb, rowsOf, hf, Fin.sum_univ_two]
  have e1 : v (0 : Fin 2) = Real.exp 1 / (Real.exp 1 + Real.exp 0) := by
    refine (h2 (0 : Fin 2)).trans ((hlog _).trans ?_)
    rw [hp1]
    change Real.exp (clip700 (1 * personDraw countingRng [2] 1 (1 : ℕ) 0 2 (0 : Fin 1))) /
      (Real.exp (clip700 (1 * personDraw countingRng [2] 1 (1 : ℕ) 0 2 (0 : Fin 1))) +
        Real.exp (clip700 (0 * personDraw countingRng [2] 1 (1 : ℕ) 0 2 (0 : Fin 1)))) = _
    rw [hd1]
    norm_num [clip700]
  have e2 : v' (exSecondRows (0 : Fin 2)) = Real.exp 2 / (Real.exp 2 + Real.exp 0) := by
    refine (h4 _).trans ((clippedLogit_local exSecond_part _ (0 : Fin 2)).symm.trans ((hlog _).trans ?_))
    rw [hp2]
    change Real.exp (clip700 (1 * personDraw countingRng [1, 2] 1 (1 : ℕ) 0 2 (0 : Fin 1))) /
      (Real.exp (clip700 (1 * personDraw countingRng [1, 2] 1 (1 : ℕ) 0 2 (0 : Fin 1))) +
        Real.exp (clip700 (0 * personDraw countingRng [1, 2] 1 (1 : ℕ) 0 2 (0 : Fin 1)))) = _
    rw [hd2]
    norm_num [clip700]
  intro h
  have h' := e1.symm.trans (h.trans e2)
  rw [Real.exp_zero, div_eq_div_iff (by positivity) (by positivity)] at h'
  have := Real.exp_lt_exp.2 (show (1 : ℝ) < 2 by norm_num)
  linarith

/-- Non-vacuity of `mixed_predict_local_partial`: the rows of every observation in another order. -/
example (env : Env ℝ) (henv : env.badCol = fun _ => false) (names : List String) (st : ℕ) :
    ∃ m v v' s' s'', createChoiceModel env "Mixed Logit" exPeople exPeopleArgs = .ok m ∧
      predictMixedFrame env countingRng m names ⟨[0, 1], none, none, none⟩ exPeople none true none (.int 1)
        (some (.int 1)) st = .ok (.inl v', s') ∧
      predictMixedFrame env countingRng m names ⟨[0, 1], none, none, none⟩ exPeopleRows none true none (.int 1)
        (some (.int 1)) st = .ok (.inl v, s'') ∧ v (0 : Fin 4) = v' (1 : Fin 4) := by
  obtain ⟨m, hm, ha, hd, hn⟩ := exPeople_model env henv (L := exPeople) rfl exPeople_alts
  obtain ⟨v', s', h3, -⟩ := exMean_predicts env hm ha hd hn (L := exPeople) rfl exPeople_alts (by decide) names st
  have hL : AltsOf exPeopleRows "alt" [1, 2] := by
    refine ⟨by norm_num, fun a => ?_⟩
    simp only [List.mem_cons, List.not_mem_nil, or_false]
    constructor
    · rintro (rfl | rfl)
      · exact ⟨(1 : Fin 4), rfl⟩
      · exact ⟨(0 : Fin 4), rfl⟩
    · rintro ⟨r, rfl⟩
      change Fin 4 at r
      change ((![2, 1, 2, 1] : Fin 4 → ℝ) r = 1) ∨ (![2, 1, 2, 1] : Fin 4 → ℝ) r = 2
      fin_cases r <;> simp
  have hp : PartOf "obs" exPeopleRows exPeople (![1, 0, 3, 2] : Fin 4 → Fin 4) := by
    refine ⟨fun c => Iff.rfl, ?_, fun c r => ?_, fun r r' h => ?_⟩
    · change Function.Injective (![1, 0, 3, 2] : Fin 4 → Fin 4)
      decide
    · change Fin 4 at r
      simp only [exPeopleRows, exPeople]
      split_ifs <;> fin_cases r <;> rfl
    · have : Function.Surjective (![1, 0, 3, 2] : Fin 4 → Fin 4) := by decide
      exact this r'
  obtain ⟨res, s'', h4, h5⟩ := mixed_predict_local_partial countingRng hm (vars := ["x"]) rfl (s := [("x", .allSame)])
    (by rw [ha]; rfl) (by simp) (by rw [ha]; intro ns h; cases h) (alts := [1, 2]) (by rw [ha, hd]; exact exPeople_alts)
    (col := fun _ => 0) (by
      intro j hj
      obtain rfl : j = 0 := by simpa using hj
      simp [hn]) (by rw [ha]; exact hL) (by rw [ha]; exact exPeople_alts) (by rw [ha]; exact hp) (by
      intro c hc
      obtain rfl : "person" = c := by simpa [exPeopleArgs] using hc
      simp [exPeople, exPeopleRows, Frame.colList, firstAppearance]) names ⟨[0, 1], none, none, none⟩ none true none
    (.int 1) (some (.int 1)) st h3
  rcases h5 with ⟨v, v1, rfl, e, h6⟩ | ⟨v, v1, rfl, e, -⟩
  · cases e
    exact ⟨m, v, v', s', s'', hm, h3, h4, h6 (0 : Fin 4)⟩
  · cases e

end

end Pylogit
