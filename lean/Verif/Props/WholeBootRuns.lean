import Verif.Props.WholeBoot

/-!
# When replicates of a multinomial logit model can be estimated (C113)
-/

open Finset

namespace Pylogit

open Spec

noncomputable section

/-! ## Starting values extracted from the MNL estimates -/

private lemma assignTail_length {n : ℕ} {x y : List ℝ} (h : assignTail n x = .ok y) : y.length = n := by
  unfold assignTail at h
  simp only at h
  split_ifs at h with h1 h2 h3 h4 <;> cases h
  · simp [h2]
  · simp; omega
  · simp; omega

/-- **C113** (starting values). The default extraction of starting values gives one value per parameter, whatever the MNL
estimates are. -/
theorem default_extract_length {label : PyVal ℝ → String} {m : ChoiceModel ℝ} {names : List (PyVal ℝ)} {est : List ℝ}
    {n : ℕ} {x : List ℝ} (h : defaultExtract label m names est n = .ok x) : x.length = n := by
  unfold defaultExtract extractDefaultInitVals at h
  simp only [bind, Except.bind] at h
  split at h
  · cases h
  · exact assignTail_length h

/-- **C113** (default starting values, outside intercepts). For a model with named outside intercepts, the default
extraction takes the MNL estimate carrying the name of each intercept and of each coefficient, whatever their order, and
zeros for the shape parameters; coefficients of an asymmetric logit are divided by the logarithm of the number of
alternatives of the model's table. -/
theorem default_extract_outside {label : PyVal ℝ → String} {m : ChoiceModel ℝ} {alts : List ℝ}
    (ha : AltsOf m.data m.args.altIdCol alts) {icpts : List String} (hi : m.args.interceptNames = some icpts)
    (hmix : m.args.mixingVars = none) {names : List (PyVal ℝ)} {est : List ℝ} (hnd : (names.map label).Nodup)
    (coef : String → ℝ) (hcoef : ∀ k ∈ icpts ++ m.indVarNames.map label, ValueAt ⟨names.map label, est⟩ k (coef k))
    (hne : icpts ++ m.indVarNames.map label ≠ []) (g : Groups ℝ) (hN : ∀ x ∈ g.nests, x = 0) (hS : ∀ x ∈ g.shapes, x = 0)
    (hI : g.intercepts = icpts.map coef)
    (hB : g.index = (m.indVarNames.map label).map fun k => if m.cls = .asym then coef k / Real.log alts.length else coef k) :
    defaultExtract label m names est g.flat.length = .ok g.flat := by
  unfold defaultExtract
  rw [show (allIds m.data m.args.altIdCol).length = alts.length from congrArg List.length (altsOf_eq ha)]
  exact default_init_vals_outside m.cls (modelNames label m) alts.length _ hnd icpts hi hmix coef hcoef hne g hN hS hI hB

/-- **C113** (default starting values, no outside intercepts). Without named outside intercepts the MNL estimates are
taken in the order of the MNL model, after zeros for the shape parameters; they are divided by the logarithm of the
number of alternatives for an asymmetric logit. -/
theorem default_extract_inside {label : PyVal ℝ → String} {m : ChoiceModel ℝ} {alts : List ℝ}
    (ha : AltsOf m.data m.args.altIdCol alts) (hi : m.args.interceptNames = none) (hmix : m.args.mixingVars = none)
    {names : List (PyVal ℝ)} {est : List ℝ} (hne : est ≠ []) {n : ℕ} (hn : est.length ≤ n) :
    defaultExtract label m names est n = .ok (List.replicate (n - est.length) 0 ++
      est.map fun x => if m.cls = .asym then x / Real.log alts.length else x) := by
  unfold defaultExtract extractDefaultInitVals
  rw [show (allIds m.data m.args.altIdCol).length = alts.length from congrArg List.length (altsOf_eq ha)]
  have h0 : est.length ≠ 0 := by simpa using hne
  by_cases hc : m.cls = .asym <;> simp [modelNames, hi, hmix, hc, bind, Except.bind, assignTail, h0, hn]

/-! ## Helper lemmas: building and estimating the model of a replicate -/

/-- A model can be re-created on any table with its columns and its alternatives. -/
theorem recreate_ok {env : Env ℝ} {ty : String} {df : Frame ℝ} {a : ModelArgs ℝ} {m : ChoiceModel ℝ}
    (hm : createChoiceModel env ty df a = .ok m) {s : List (String × SpecVal ℝ)}
    (hspec : m.args.specification = encodeAll s) {alts : List ℝ} (ha : AltsOf m.data m.args.altIdCol alts)
    {df' : Frame ℝ} {idCol : String} (hsub : ∀ c ∈ m.data.columns, c ∈ df'.columns) (hid : idCol ∈ df'.columns)
    (ha' : AltsOf df' m.args.altIdCol alts) :
    ∃ m', recreate env m idCol df' = .ok m' ∧ m'.cls = m.cls ∧ m'.data = df' ∧
      m'.args = { m.args with obsIdCol := idCol } ∧ m'.indVarNames = m.indVarNames ∧
      m'.design.length = m.design.length := by
  have hown := (built_own hm).1
  obtain ⟨-, h⟩ := factory_type env ty df a
  obtain ⟨-, ht, hab, -⟩ := h m hm
  have hl : modelTypeToClass.lookup ty = some m.cls := (lookup_class _ _).2 ht
  have hagain := recreate_same hm
  unfold recreate at hagain ⊢
  rw [hab] at hagain ⊢
  unfold createChoiceModel at hagain ⊢
  simp only [hl, bind, Except.bind] at hagain ⊢
  obtain ⟨g1, g2⟩ := classInit_iff.1 hagain
  have hargs : argsFor m.cls m.args = m.args := ((baseInit_attrs g2).2.2.2).symm
  have hargs' : argsFor m.cls { m.args with obsIdCol := idCol } = { m.args with obsIdCol := idCol } := by
    have : argsFor m.cls { m.args with obsIdCol := idCol } = { argsFor m.cls m.args with obsIdCol := idCol } := by
      cases m.cls <;> rfl
    rw [this, hargs]
  obtain ⟨i1, i2⟩ := baseInit_ok.1 g2
  rw [show argsFor m.cls { m.args with obsIdCol := m.args.obsIdCol } = m.args from hargs] at i1 i2
  obtain ⟨j1, j2, j3, j4⟩ := initChecks_ok.1 i1
  have hids : allIds df' m.args.altIdCol = allIds m.data m.args.altIdCol := by
    unfold allIds
    rw [altsOf_eq ha, altsOf_eq ha']
  have hnum : numAlternatives df' m.args.altIdCol = numAlternatives m.data m.args.altIdCol := by
    rw [← allIds_length, ← allIds_length, hids]
  have hdes := hown.design
  rw [hspec] at hdes
  obtain ⟨halt, hvars, hchk, hnam, cs, hcs, hne, hcols, hnms⟩ := (createDesignMatrix_ok_iff (altsOf_eq ha)).1 hdes
  have hint : addIntercept m.args.specification df' = df' := by
    rw [addIntercept, if_neg]
    rintro ⟨h1, h2⟩
    rw [hspec] at h1
    exact h2 (hsub _ (hvars _ h1))
  rw [designColumns_encode] at hcs
  obtain ⟨-, k2, d, -, k4, k5⟩ := initBuild_iff.1 i2
  have k5 : m.indVarNames = d.2 := congrArg ChoiceModel.indVarNames k5
  have hnames : ((described env.fmt env.fmtList df' m.args.altIdCol (s.flatMap fun kv => kv.2.columns alts kv.1)).map
      fun c => PyVal.str (V := ℝ) c.2) = cs.map fun c => .str c.2 := by
    rw [← Except.ok.inj hcs]
    simp [described, Function.comp_def]
  have hlen : (described env.fmt env.fmtList df' m.args.altIdCol (s.flatMap fun kv => kv.2.columns alts kv.1)).length =
      cs.length := by
    rw [← Except.ok.inj hcs]
    simp [described]
  have hd' : createDesignMatrix env.fmt env.fmtList df' m.args.specification m.args.altIdCol m.args.names =
      .ok ((described env.fmt env.fmtList df' m.args.altIdCol (s.flatMap fun kv => kv.2.columns alts kv.1)).map Prod.fst,
        m.indVarNames) := by
    rw [hspec, createDesignMatrix_ok_iff (altsOf_eq ha')]
    refine ⟨hsub _ halt, fun c hc => hsub _ (hvars c hc), hchk, hnam, _, designColumns_encode .., ?_, rfl, ?_⟩
    · rw [← List.length_pos_iff, hlen, List.length_pos_iff]
      exact hne
    · rw [hnames]
      exact hnms
  obtain ⟨m', hb, b1, b2, b3, b4, b5⟩ : ∃ m', initBuild env m.cls (displayNameOf (classOf m.cls)) df'
      { m.args with obsIdCol := idCol } = .ok m' ∧ m'.cls = m.cls ∧ m'.data = df' ∧
      m'.args = { m.args with obsIdCol := idCol } ∧ m'.indVarNames = m.indVarNames ∧
      m'.design.length = m.design.length :=
    ⟨_, initBuild_iff.2 ⟨fun c hc => hsub _ (hvars c (by rw [← hspec]; exact hc)), k2, _, hd',
      fun l hl v hv => k5 ▸ k4 l hl v hv, rfl⟩, rfl, rfl, rfl, rfl, by
        rw [show m.design = _ from hcols, List.length_map, List.length_map, hlen]⟩
  refine ⟨m', classInit_iff.2 ⟨g1, ?_⟩, b1, b2, b3, b4, b5⟩
  · rw [hargs']
    refine baseInit_ok.2 ⟨initChecks_ok.2 ⟨?_, ?_, ?_, ?_⟩, ?_⟩
    · intro c hc
      simp only [List.mem_cons, List.not_mem_nil, or_false] at hc
      rcases hc with rfl | rfl | rfl
      · exact hsub _ (j1 _ (by simp))
      · exact hid
      · exact hsub _ (j1 _ (by simp))
    · exact hnum ▸ j2
    · exact hnum ▸ j3
    · exact hids ▸ j4
    · exact (congrArg (fun t => initBuild env m.cls (displayNameOf (classOf m.cls)) t
        { m.args with obsIdCol := idCol }) hint).trans hb

/-- With an optimiser that always returns, an estimation on a table with rows and ascending ids returns estimates; for
a multinomial logit it is enough that the optimiser returns when there is a minimum. -/
theorem point_estimate_ok {m : ChoiceModel ℝ} (hrows : 0 < m.data.numRows) (hn : m.cls ≠ .nested) (hx : m.cls ≠ .mixed)
    {alts : List ℝ} (ha : AltsOf m.data m.args.altIdCol alts) {opts : PointOptions}
    (hsol : (∀ n f x h, ∃ r, opts.solver n f x h = .ok r) ∨
      m.cls = .mnl ∧ Returns opts.solver opts.ridge ∧ ∀ r, 0 ≤ m.data.val m.args.choiceCol r)
    (hasc : (m.data.colList m.args.obsIdCol).Pairwise (· ≤ ·))
    (hi : m.cls ≠ .mnl → m.args.interceptRefPos = .none ∨
      ∃ z : ℤ, m.args.interceptRefPos = .int z ∧ 0 ≤ z ∧ z < alts.length)
    (hs : m.cls = .asym → ∃ z : ℤ, m.args.shapeRefPos = .int z ∧ 0 ≤ z ∧ z < alts.length)
    {init : List ℝ} (hl : init.length = totalParams m.cls (fitDims m) (m.args.interceptRefPos != .none))
    (hcon : ∀ z ∈ opts.constrained.getD [], ∃ i, PosIs init.length z i) :
    ∃ y, pointEstimate opts m init = .ok y ∧ y.length = init.length := by
  obtain ⟨obj, hobj⟩ := (object_iff hrows opts.ridge ha).2 ⟨hn, hx, hi, hs⟩
  have hk := object_n hobj
  rw [← hl] at hk
  rw [← hk] at hcon
  obtain ⟨ps, hps⟩ := constrainedArg_exists.2 hcon
  have h1 : rawInitVals m.cls (fitDims m) ⟨some init, none, none, none⟩ = .ok init := by
    cases hcl : m.cls <;> simp_all [rawInitVals, initPlain, initClog, initShapesModel]
  have h6 : estimationChecks (opts.ridge.map PyVal.num) (m.data.colList m.args.obsIdCol) .none = .ok () := by
    unfold estimationChecks
    have : ensureContiguity (m.data.colList m.args.obsIdCol) = .ok () := ensureContiguity_ok.2 hasc
    cases opts.ridge <;> simp [checkRidge, this, checkWeights, bind, Except.bind]
  have hpos : 0 < (fitDims m).numAlts := by
    have := (ha.mem _).2 ⟨⟨0, hrows⟩, rfl⟩
    simp only [fitDims, altsOf_eq ha]
    exact List.length_pos_of_mem this
  have h3 := (checkInitLength_iff m.cls (fitDims m) (m.args.interceptRefPos != .none) init hpos).1.2 hl
  obtain ⟨rep, hrep⟩ : ∃ rep, opts.solver _ (obj.est ps).negLLAndGrad (fun k => init.getD k 0) (obj.est ps).negHessian =
      .ok rep := by
    rcases hsol with hsol | ⟨hcl, hsol, hpos⟩
    · exact hsol _ _ _ _
    · obtain rfl : mnlObject m hrows opts.ridge = obj := by
        unfold logitObject at hobj
        rw [hcl] at hobj
        cases hobj
        rfl
      exact mnl_returns hrows hsol hpos ps _
  refine ⟨List.ofFn rep.x, ?_, by rw [List.length_ofFn]; exact hk⟩
  unfold pointEstimate
  simp only [bind, Except.bind, h1, h6, hrows, dif_pos, hobj, h3, hps, hrep]

/-- How an MNL model is re-created on another table. -/
theorem mnl_recreate_args {env : Env ℝ} {ty : String} {df : Frame ℝ} {a : ModelArgs ℝ} {m : ChoiceModel ℝ}
    (hm : createChoiceModel env ty df a = .ok m) (hcls : m.cls = .mnl) {df' : Frame ℝ} {idCol : String}
    {m' : ChoiceModel ℝ} (hm' : recreate env m idCol df' = .ok m') :
    createChoiceModel env "MNL" df'
      { altIdCol := m.args.altIdCol, obsIdCol := idCol, choiceCol := m.args.choiceCol,
        specification := m.args.specification, names := m.args.names, interceptRefPos := .none, shapeRefPos := .none,
        interceptNames := none, shapeNames := none, nestSpec := none, mixingIdCol := none,
        mixingVars := none } = .ok m' := by
  have hd := (mnl_display hm).2 hcls
  unfold recreate at hm'
  rw [hd] at hm'
  have e : getModelAbbrev (displayNameOf "MNL") = .ok "MNL" := by decide
  rw [e] at hm'
  simp only [bind, Except.bind] at hm'
  obtain ⟨-, hf⟩ := factory_type env ty df a
  obtain ⟨-, ht, -⟩ := hf m hm
  unfold createChoiceModel at hm
  have hl : modelTypeToClass.lookup ty = some m.cls := (lookup_class _ _).2 ht
  simp only [hl, hcls, classInit] at hm
  split_ifs at hm with hr
  push Not at hr
  have ha := (baseInit_attrs hm).2.2.2
  rw [← hm']
  congr 1
  rw [ha]
  simp [hr]

/-- A replicate of an MNL model is the estimate of the re-created model. -/
theorem mnl_point_est {env : Env ℝ} {ty : String} {df : Frame ℝ} {a : ModelArgs ℝ} {m : ChoiceModel ℝ}
    (hm : createChoiceModel env ty df a = .ok m) (hcls : m.cls = .mnl) {F : Fitter ℝ PointOptions}
    {extract : ChoiceModel ℝ → List (PyVal ℝ) → List ℝ → ℕ → Except Err (List ℝ)} {df' : Frame ℝ} {idCol : String}
    {n : ℕ} {mnl : MnlArgs ℝ PointOptions} {opts : PointOptions} {m' : ChoiceModel ℝ}
    (hm' : recreate env m idCol df' = .ok m') {y : List ℝ}
    (hy : F.fit m' (mnl.init.getD (List.replicate n 0)) (mnl.kwargs.getD F.noKwargs) = .ok y)
    (hlen : y.length = m'.indVarNames.length) :
    retrievePointEst env F extract m df' idCol n mnl opts = .ok y := by
  have hd := (mnl_display hm).2 hcls
  have hkw : (if mnl.kwargs.isNone = true then some F.noKwargs else mnl.kwargs) =
      some (mnl.kwargs.getD F.noKwargs) := by
    cases mnl.kwargs <;> rfl
  have hin : (if mnl.init = none then some (List.replicate n 0) else mnl.init) =
      some (mnl.init.getD (List.replicate n 0)) := by
    cases mnl.init <;> rfl
  have hobj := mnl_recreate_args hm hcls hm'
  unfold retrievePointEst getMnlPointEst
  simp only [hd, true_and, if_true]
  rw [hkw, hin]
  simp only [hobj, hy, bind, Except.bind, hlen, ne_eq, not_true_eq_false, if_false]

/-- The replicates of an MNL model can be estimated on tables that have its columns and alternatives, and ascending ids. -/
theorem mnl_replicates_ok {env : Env ℝ} {ty : String} {df : Frame ℝ} {a : ModelArgs ℝ} {m : ChoiceModel ℝ}
    (hm : createChoiceModel env ty df a = .ok m) (hcls : m.cls = .mnl) {s : List (String × SpecVal ℝ)}
    (hspec : m.args.specification = encodeAll s) {alts : List ℝ} (ha : AltsOf m.data m.args.altIdCol alts)
    {n : ℕ} (hcols : (specColumns alts s).length = n) (hnames : m.indVarNames.length = n)
    {bfgs : Solver} {extract : ChoiceModel ℝ → List (PyVal ℝ) → List ℝ → ℕ → Except Err (List ℝ)}
    {mnl : MnlArgs ℝ PointOptions} {opts : PointOptions}
    (hinit : (mnl.init.getD (List.replicate n 0)).length = n)
    (hcon : ∀ z ∈ (mnl.kwargs.getD ⟨bfgs, none, none⟩).constrained.getD [], ∃ i, PosIs n z i) {idCol : String}
    {frames : List (Frame ℝ)}
    (h : ∀ df' ∈ frames, (∀ c ∈ m.data.columns, c ∈ df'.columns) ∧ idCol ∈ df'.columns ∧ 0 < df'.numRows ∧
      AltsOf df' m.args.altIdCol alts ∧ (df'.colList idCol).Pairwise (· ≤ ·))
    (hsol : (∀ k f x h, ∃ r, (mnl.kwargs.getD ⟨bfgs, none, none⟩).solver k f x h = .ok r) ∨
      Returns (mnl.kwargs.getD ⟨bfgs, none, none⟩).solver (mnl.kwargs.getD ⟨bfgs, none, none⟩).ridge ∧
        ∀ df' ∈ frames, ∀ r, 0 ≤ df'.val m.args.choiceCol r) :
    ∃ reps, replicatesOn env (pointFitter bfgs) extract m idCol n mnl opts frames = .ok reps := by
  have key : ∀ df' ∈ frames, ∃ row, (do
      let x ← retrievePointEst env (pointFitter bfgs) extract m df' idCol n mnl opts
      assignRow n x) = (.ok row : Except Err (List ℝ)) := by
    intro df' hdf
    obtain ⟨h1, h2, h3, h4, h5⟩ := h df' hdf
    obtain ⟨m', hm', e1, e2, e3, e4, e5⟩ := recreate_ok hm hspec ha h1 h2 h4
    subst e2
    have hdl : m.design.length = n := by
      have hdes := (built_own hm).1.design
      rw [hspec] at hdes
      rw [show m.design = _ from design_entries ha hdes, List.length_map, ← hcols, specColumns]
    obtain ⟨y, hy, hyl⟩ := point_estimate_ok (m := m') h3 (by rw [e1, hcls]; decide) (by rw [e1, hcls]; decide)
      (alts := alts) (by rw [e3]; exact h4) (hsol.imp id fun h => ⟨e1.trans hcls, h.1, by rw [e3]; exact h.2 _ hdf⟩) (by rw [e3]; exact h5)
      (fun h => absurd (e1.trans hcls) h)
      (fun h => by rw [e1, hcls] at h; cases h) (init := mnl.init.getD (List.replicate n 0))
      (by rw [e1, hcls]; simp only [totalParams, fitDims]; rw [e5, hdl, hinit]) (by rw [hinit]; exact hcon)
    rw [hinit] at hyl
    refine ⟨y, ?_⟩
    rw [mnl_point_est hm hcls hm' (F := pointFitter bfgs) ((if_neg (by rw [e1, hcls]; decide)).trans hy)
      (by rw [e4, hnames, hyl])]
    simp [bind, Except.bind, assignRow, hyl]
  unfold replicatesOn
  choose! row hrow using key
  exact ⟨_, mapM_ok hrow⟩

/-- Every bootstrap sample gives a table with rows, ascending ids, and the alternatives of the original table; its rows
are rows of the original table. -/
theorem bootstrap_frames_rows {env : Env ℝ} {ty : String} {df : Frame ℝ} {a : ModelArgs ℝ} {m : ChoiceModel ℝ}
    (hm : createChoiceModel env ty df a = .ok m) {alts : List ℝ} (ha : AltsOf m.data m.args.altIdCol alts)
    {chosen : ℝ → Fin m.data.numRows} (hc : OneChoicePerObs m.data m.args.obsIdCol m.args.choiceCol chosen)
    (hall : ∀ b ∈ alts, ∃ r, m.data.val m.args.altIdCol r = b ∧ m.data.val m.args.choiceCol r = 1)
    (hboot : "bootstrap_id" ∉ m.data.columns) {g : Rng} (hg : ChoosesMembers g) (numSamples : ℕ)
    {seed : Option IntArg} (st : g.State) (hseed : seed = none ∨ ∃ k s₀, seed = some (.int k) ∧ g.seed k = .ok s₀) :
    ∃ smp frames, samplesRng g (m.data.val m.args.obsIdCol) (m.data.val m.args.altIdCol)
        (m.data.val m.args.choiceCol) numSamples seed st = .ok smp ∧
      bootstrapFrames m.data m.args.obsIdCol smp.1 = .ok frames ∧
      ∀ df' ∈ frames, (∀ c ∈ m.data.columns, c ∈ df'.columns) ∧ "bootstrap_id" ∈ df'.columns ∧ 0 < df'.numRows ∧
        AltsOf df' m.args.altIdCol alts ∧ (df'.colList "bootstrap_id").Pairwise (· ≤ ·) ∧
        ∀ r', ∃ r, ∀ c ∈ m.data.columns, df'.val c r' = m.data.val c r := by
  classical
  have hown := (built_own hm).1
  have halt : m.args.altIdCol ∈ m.data.columns := ((createDesignMatrix_ok_iff rfl).1 hown.design).1
  obtain ⟨smp, hsmp⟩ := (bootstrap_samples_iff g (m.data.val m.args.obsIdCol) (m.data.val m.args.altIdCol)
    (m.data.val m.args.choiceCol) numSamples seed st).2 hseed
  obtain ⟨b1, b2⟩ := bootstrap_samples_rng g hg _ _ _ (each_chose_one hc) numSamples seed st hsmp
  have hrow : 0 < m.data.numRows := lt_of_le_of_lt (Nat.zero_le _) (chosen 0).2
  have key : ∀ sm ∈ smp.1, ∃ out, createBootstrapDataframe m.data m.args.obsIdCol sm (groupbyDict m.data m.args.obsIdCol)
      "bootstrap_id" = .ok out ∧ (∀ c ∈ m.data.columns, c ∈ out.columns) ∧ "bootstrap_id" ∈ out.columns ∧
      0 < out.numRows ∧ AltsOf out m.args.altIdCol alts ∧ (out.colList "bootstrap_id").Pairwise (· ≤ ·) ∧
      ∀ r', ∃ r, ∀ c ∈ m.data.columns, out.val c r' = m.data.val c r := by
    intro sm hsm
    obtain ⟨f1, f2, f3⟩ := b2 sm hsm
    have hne : sm ≠ [] := by
      rintro rfl
      rw [List.length_nil, eq_comm, Finset.card_eq_zero, Finset.image_eq_empty] at f1
      exact absurd (Finset.mem_univ (⟨0, hrow⟩ : Fin m.data.numRows)) (by rw [f1]; simp)
    obtain ⟨out, o1, o2, o3, o4, -, o6⟩ := bootstrap_dataframe m.data m.args.obsIdCol "bootstrap_id" hown.obs hboot sm hne f2
    obtain ⟨ids', src, hcop, hsrc⟩ := bootstrap_copies hboot f2 o4 o3
    have hmem : ∀ b ∈ alts, ∃ r, out.val m.args.altIdCol r = b := by
      intro b hb
      obtain ⟨r0, hr1, hr2⟩ := hall b hb
      have hpos : 0 < sm.countP (fun o =>
          Chose (m.data.val m.args.obsIdCol) (m.data.val m.args.altIdCol) (m.data.val m.args.choiceCol) o b) := by
        have := f3 b
        rw [this, Finset.card_pos]
        exact ⟨m.data.val m.args.obsIdCol r0, by
          rw [Finset.mem_filter]
          exact ⟨Finset.mem_image_of_mem _ (Finset.mem_univ _), r0, rfl, hr1, hr2⟩⟩
      obtain ⟨o, ho, hch⟩ := List.countP_pos_iff.1 hpos
      obtain ⟨r, e1, e2, -⟩ : Chose (m.data.val m.args.obsIdCol) (m.data.val m.args.altIdCol)
        (m.data.val m.args.choiceCol) o b := by simpa using hch
      rw [← hsrc] at ho
      obtain ⟨i, hi, rfl⟩ := List.mem_map.1 ho
      obtain ⟨r', -, hr'⟩ := copies_back hcop hi e1
      exact ⟨r', (hr' _ halt).trans e2⟩
    have hA : AltsOf out m.args.altIdCol alts := by
      refine ⟨ha.ascending, fun b => ⟨hmem b, ?_⟩⟩
      rintro ⟨r', rfl⟩
      obtain ⟨r, -, hr⟩ := copies_row hcop r'
      rw [hr _ halt]
      exact (ha.mem _).2 ⟨r, rfl⟩
    refine ⟨out, o1, fun c hc => by rw [o2]; exact List.mem_append_left _ hc, by rw [o2]; simp, ?_, hA,
      ensureContiguity_ok.1 o6, fun r' => by
        obtain ⟨r, -, hr⟩ := copies_row hcop r'
        exact ⟨r, hr⟩⟩
    obtain ⟨r', -⟩ := hmem _ ((ha.mem _).2 ⟨⟨0, hrow⟩, rfl⟩)
    exact lt_of_le_of_lt (Nat.zero_le _) r'.2
  have : Nonempty (Frame ℝ) := ⟨m.data⟩
  choose! out hout using key
  refine ⟨smp, smp.1.map out, hsmp, mapM_ok fun sm hsm => (hout sm hsm).1, fun df' hdf => ?_⟩
  obtain ⟨sm, hsm, rfl⟩ := List.mem_map.1 hdf
  exact (hout sm hsm).2

theorem bootstrap_frames_ok {env : Env ℝ} {ty : String} {df : Frame ℝ} {a : ModelArgs ℝ} {m : ChoiceModel ℝ}
    (hm : createChoiceModel env ty df a = .ok m) {alts : List ℝ} (ha : AltsOf m.data m.args.altIdCol alts)
    {chosen : ℝ → Fin m.data.numRows} (hc : OneChoicePerObs m.data m.args.obsIdCol m.args.choiceCol chosen)
    (hall : ∀ b ∈ alts, ∃ r, m.data.val m.args.altIdCol r = b ∧ m.data.val m.args.choiceCol r = 1)
    (hboot : "bootstrap_id" ∉ m.data.columns) {g : Rng} (hg : ChoosesMembers g) (numSamples : ℕ)
    {seed : Option IntArg} (st : g.State) (hseed : seed = none ∨ ∃ k s₀, seed = some (.int k) ∧ g.seed k = .ok s₀) :
    ∃ smp frames, samplesRng g (m.data.val m.args.obsIdCol) (m.data.val m.args.altIdCol)
        (m.data.val m.args.choiceCol) numSamples seed st = .ok smp ∧
      bootstrapFrames m.data m.args.obsIdCol smp.1 = .ok frames ∧
      ∀ df' ∈ frames, (∀ c ∈ m.data.columns, c ∈ df'.columns) ∧ "bootstrap_id" ∈ df'.columns ∧ 0 < df'.numRows ∧
        AltsOf df' m.args.altIdCol alts ∧ (df'.colList "bootstrap_id").Pairwise (· ≤ ·) := by
  obtain ⟨smp, frames, h1, h2, h3⟩ := bootstrap_frames_rows hm ha hc hall hboot hg numSamples st hseed
  exact ⟨smp, frames, h1, h2, fun df' hdf =>
    ⟨(h3 df' hdf).1, (h3 df' hdf).2.1, (h3 df' hdf).2.2.1, (h3 df' hdf).2.2.2.1, (h3 df' hdf).2.2.2.2.1⟩⟩

/-- Every jackknife table has rows, ascending ids, and the alternatives of the original table, if each of them occurs in
two observations. -/
theorem jackknife_frames_ok {env : Env ℝ} {ty : String} {df : Frame ℝ} {a : ModelArgs ℝ} {m : ChoiceModel ℝ}
    (hm : createChoiceModel env ty df a = .ok m) {alts : List ℝ} (ha : AltsOf m.data m.args.altIdCol alts)
    (hrow : 0 < m.data.numRows) (hasc : (m.data.colList m.args.obsIdCol).Pairwise (· ≤ ·))
    (htwo : ∀ b ∈ alts, ∃ r r', m.data.val m.args.altIdCol r = b ∧ m.data.val m.args.altIdCol r' = b ∧
      m.data.val m.args.obsIdCol r ≠ m.data.val m.args.obsIdCol r') :
    ∀ df' ∈ jackknifeFrames m.data m.args.obsIdCol, (∀ c ∈ m.data.columns, c ∈ df'.columns) ∧
      m.args.obsIdCol ∈ df'.columns ∧ 0 < df'.numRows ∧
      AltsOf df' m.args.altIdCol alts ∧ (df'.colList m.args.obsIdCol).Pairwise (· ≤ ·) := by
  have hown := (built_own hm).1
  intro df' hdf
  obtain ⟨o, -, rfl⟩ := List.mem_map.1 hdf
  have hrows : (m.data.loc fun r => m.data.val m.args.obsIdCol r ≠ o).rows = otherRows m.data m.args.obsIdCol o :=
    rows_ofRows _ _
  set df' := m.data.loc fun r => m.data.val m.args.obsIdCol r ≠ o with hdf'
  have hback : ∀ r, m.data.val m.args.obsIdCol r ≠ o → ∃ r', ∀ c, df'.val c r' = m.data.val c r := by
    intro r hr
    have : (fun c => m.data.val c r) ∈ df'.rows := by
      rw [hrows]
      exact List.mem_map.2 ⟨r, by simpa using hr, rfl⟩
    obtain ⟨r', hr'⟩ := List.mem_ofFn.1 this
    exact ⟨r', fun c => congrFun hr' c⟩
  have hfwd : ∀ r', ∃ r, ∀ c, df'.val c r' = m.data.val c r := by
    intro r'
    have : (fun c => df'.val c r') ∈ df'.rows := List.mem_ofFn.2 ⟨r', rfl⟩
    rw [hrows] at this
    obtain ⟨r, -, hr'⟩ := List.mem_map.1 this
    exact ⟨r, fun c => (congrFun hr' c).symm⟩
  have hmem : ∀ b ∈ alts, ∃ r, df'.val m.args.altIdCol r = b := by
    intro b hb
    obtain ⟨r, r', h1, h2, h3⟩ := htwo b hb
    by_cases e : m.data.val m.args.obsIdCol r = o
    · obtain ⟨q, hq⟩ := hback r' fun e' => h3 (e.trans e'.symm)
      exact ⟨q, (hq _).trans h2⟩
    · obtain ⟨q, hq⟩ := hback r e
      exact ⟨q, (hq _).trans h1⟩
  refine ⟨fun c hc => hc, hown.obs, ?_, ⟨ha.ascending, fun b => ⟨hmem b, ?_⟩⟩, ?_⟩
  · obtain ⟨r', -⟩ := hmem _ ((ha.mem _).2 ⟨⟨0, hrow⟩, rfl⟩)
    exact lt_of_le_of_lt (Nat.zero_le _) r'.2
  · rintro ⟨r', rfl⟩
    obtain ⟨r, hr⟩ := hfwd r'
    rw [hr]
    exact (ha.mem _).2 ⟨r, rfl⟩
  · have e1 : df'.colList m.args.obsIdCol = df'.rows.map fun row => row m.args.obsIdCol := by
      unfold Frame.colList Frame.rows
      rw [List.map_ofFn]
      rfl
    have e2 : (m.data.colList m.args.obsIdCol) = m.data.rows.map fun row => row m.args.obsIdCol := by
      unfold Frame.colList Frame.rows
      rw [List.map_ofFn]
      rfl
    rw [e1, hrows, show otherRows m.data m.args.obsIdCol o = m.data.rows.filter fun row => row m.args.obsIdCol ≠ o from
      (rows_filter m.data fun row => decide (row m.args.obsIdCol ≠ o)).symm]
    rw [e2] at hasc
    exact hasc.sublist (List.filter_sublist.map _)

/-! ## The properties -/

/-- **C113** (bootstrap of an MNL model never fails). If every observation of the model's table chose one row and every
alternative was chosen by somebody, the columns have a name each, there is one starting value per parameter, the positions
to be held fixed exist and the optimiser always returns - or returns when there is a minimum, with a ridge penalty that is
not negative -, then every bootstrap sample can be estimated, whatever is drawn:
the samples are stratified by the chosen alternative, so no alternative gets lost.  The ids of the table need not be
sorted. -/
theorem mnl_bootstrap_succeeds {env : Env ℝ} {ty : String} {df : Frame ℝ} {a : ModelArgs ℝ} {m : ChoiceModel ℝ}
    (hm : createChoiceModel env ty df a = .ok m) (hcls : m.cls = .mnl) {s : List (String × SpecVal ℝ)}
    (hspec : m.args.specification = encodeAll s) {alts : List ℝ} (ha : AltsOf m.data m.args.altIdCol alts)
    {chosen : ℝ → Fin m.data.numRows} (hc : OneChoicePerObs m.data m.args.obsIdCol m.args.choiceCol chosen)
    (hall : ∀ b ∈ alts, ∃ r, m.data.val m.args.altIdCol r = b ∧ m.data.val m.args.choiceCol r = 1)
    (hboot : "bootstrap_id" ∉ m.data.columns)
    {n : ℕ} (hcols : (specColumns alts s).length = n) (hnames : m.indVarNames.length = n)
    {g : Rng} (hg : ChoosesMembers g) {bfgs : Solver}
    (extract : ChoiceModel ℝ → List (PyVal ℝ) → List ℝ → ℕ → Except Err (List ℝ))
    {mnl : MnlArgs ℝ PointOptions} (opts : PointOptions) (hinit : (mnl.init.getD (List.replicate n 0)).length = n)
    (hsol : Returns (mnl.kwargs.getD ⟨bfgs, none, none⟩).solver (mnl.kwargs.getD ⟨bfgs, none, none⟩).ridge)
    (hcon : ∀ z ∈ (mnl.kwargs.getD ⟨bfgs, none, none⟩).constrained.getD [], ∃ i, PosIs n z i)
    (numSamples : ℕ) {seed : Option IntArg} (st : g.State)
    (hseed : seed = none ∨ ∃ k s₀, seed = some (.int k) ∧ g.seed k = .ok s₀) :
    ∃ res, bootstrapRun g env bfgs extract m n mnl opts numSamples seed st = .ok res := by
  obtain ⟨smp, frames, hsmp, hf, hgood⟩ := bootstrap_frames_rows hm ha hc hall hboot hg numSamples st hseed
  obtain ⟨reps, hreps⟩ := mnl_replicates_ok hm hcls hspec ha hcols hnames (extract := extract) (opts := opts) hinit hcon
    (idCol := "bootstrap_id") (frames := frames) (fun df' hdf => by
      obtain ⟨g1, g2, g3, g4, g5, -⟩ := hgood df' hdf
      exact ⟨g1, g2, g3, g4, g5⟩) (.inr ⟨hsol, fun df' hdf r' => by
      obtain ⟨r, hr⟩ := (hgood df' hdf).2.2.2.2.2 r'
      rw [hr _ (built_own hm).1.choice]
      exact choices_nonneg hc r⟩)
  refine ⟨(reps, smp.2), ?_⟩
  unfold bootstrapRun generateBootstrapReplicates
  simp only [hsmp, hf, hreps, bind, Except.bind]

/-- **C113** (jackknife of an MNL model). The jackknife replicates can all be estimated if the ids of the table ascend
and every alternative occurs in the rows of at least two observations; the other conditions are those of the
bootstrap. -/
theorem mnl_jackknife_succeeds {env : Env ℝ} {ty : String} {df : Frame ℝ} {a : ModelArgs ℝ} {m : ChoiceModel ℝ}
    (hm : createChoiceModel env ty df a = .ok m) (hcls : m.cls = .mnl) {s : List (String × SpecVal ℝ)}
    (hspec : m.args.specification = encodeAll s) {alts : List ℝ} (ha : AltsOf m.data m.args.altIdCol alts)
    (hrow : 0 < m.data.numRows) (hasc : (m.data.colList m.args.obsIdCol).Pairwise (· ≤ ·))
    (htwo : ∀ b ∈ alts, ∃ r r', m.data.val m.args.altIdCol r = b ∧ m.data.val m.args.altIdCol r' = b ∧
      m.data.val m.args.obsIdCol r ≠ m.data.val m.args.obsIdCol r')
    {n : ℕ} (hcols : (specColumns alts s).length = n) (hnames : m.indVarNames.length = n) {bfgs : Solver}
    (extract : ChoiceModel ℝ → List (PyVal ℝ) → List ℝ → ℕ → Except Err (List ℝ))
    {mnl : MnlArgs ℝ PointOptions} (opts : PointOptions) (hinit : (mnl.init.getD (List.replicate n 0)).length = n)
    (hsol : (∀ k f x h, ∃ r, (mnl.kwargs.getD ⟨bfgs, none, none⟩).solver k f x h = .ok r) ∨
      0 ≤ (mnl.kwargs.getD ⟨bfgs, none, none⟩).ridge.getD 0 ∧
        FindsMinima (mnl.kwargs.getD ⟨bfgs, none, none⟩).solver ∧ ∀ r, 0 ≤ m.data.val m.args.choiceCol r)
    (hcon : ∀ z ∈ (mnl.kwargs.getD ⟨bfgs, none, none⟩).constrained.getD [], ∃ i, PosIs n z i) :
    ∃ reps, generateJackknifeReplicates env (pointFitter bfgs) extract m n mnl opts = .ok reps :=
  mnl_replicates_ok hm hcls hspec ha hcols hnames hinit hcon (jackknife_frames_ok hm ha hrow hasc htwo)
    (hsol.imp id fun h => ⟨.inr ⟨h.1, h.2.1⟩, fun df' hdf r' => by
      obtain ⟨o, -, rfl⟩ := List.mem_map.1 hdf
      have : (fun c => (m.data.loc fun r => m.data.val m.args.obsIdCol r ≠ o).val c r') ∈
          (m.data.loc fun r => m.data.val m.args.obsIdCol r ≠ o).rows := List.mem_ofFn.2 ⟨r', rfl⟩
      rw [show (m.data.loc fun r => m.data.val m.args.obsIdCol r ≠ o).rows = otherRows m.data m.args.obsIdCol o from
        rows_ofRows _ _] at this
      obtain ⟨r, -, hr⟩ := List.mem_map.1 this
      rw [← congrFun hr m.args.choiceCol]
      exact h.2.2 r⟩)

/-- The documented utilities of an MNL model: the index, with all parameters as coefficients. -/
theorem mnl_documented {m : ChoiceModel ℝ} (hcls : m.cls = .mnl) {alts : List ℝ} {cols : List (ColDesc ℝ)} {n : ℕ}
    (hn : cols.length = n) :
    DocumentedUtilities (n := n) m alts cols fun θ r => rowIndex m.data m.args.altIdCol cols (List.ofFn θ) r := by
  intro θ
  refine ⟨⟨List.ofFn θ, none, none, none⟩, ⟨fun _ => 0, fun _ => 0⟩,
    ⟨fun _ _ _ => rfl, by simp, by simp [hcls], by simp [hcls]⟩, by simp [hcls], by simp [hcls], by simp [hn], by simp,
    fun r => ?_⟩
  rw [hcls]
  rfl

/-! ## A concrete bootstrap and jackknife -/

/-- Two observations of the alternatives 1 and 2; the first chose 1 and the second chose 2. -/
def exTwoChoosers : Frame ℝ where
  columns := ["obs", "alt", "x", "y"]
  numRows := 4
  val := fun c => if c = "alt" then ![1, 2, 1, 2] else if c = "x" then ![1, 2, 3, 5] else if c = "y" then ![1, 0, 0, 1]
    else ![1, 1, 2, 2]

theorem exTwo_ids : AltsOf exTwoChoosers "alt" [1, 2] ∧ AltsOf exTwoChoosers "obs" [1, 2] := by
  refine ⟨⟨by simp, fun x => ⟨?_, ?_⟩⟩, ⟨by simp, fun x => ⟨?_, ?_⟩⟩⟩
  · intro hx
    rcases List.mem_cons.1 hx with rfl | hx
    · exact ⟨(0 : Fin 4), rfl⟩
    · rw [List.mem_singleton.1 hx]; exact ⟨(1 : Fin 4), rfl⟩
  · rintro ⟨r, rfl⟩
    change Fin 4 at r
    fin_cases r <;> simp [exTwoChoosers]
  · intro hx
    rcases List.mem_cons.1 hx with rfl | hx
    · exact ⟨(0 : Fin 4), rfl⟩
    · rw [List.mem_singleton.1 hx]; exact ⟨(2 : Fin 4), rfl⟩
  · rintro ⟨r, rfl⟩
    change Fin 4 at r
    fin_cases r <;> simp [exTwoChoosers]

/-- Non-vacuity of the theorems on replicates: a model with one coefficient, two bootstrap samples from a seed and from an
optimiser that stays at the starting value, and the jackknife. -/
example (env : Env ℝ) (henv : env.badCol = fun _ => false) (label : PyVal ℝ → String) (st : ℕ) :
    ∃ m, createChoiceModel env "MNL" exTwoChoosers exLogitArgs = .ok m ∧
      (∃ reps st', bootstrapRun countingRng env exStaying (defaultExtract label) m 1 ⟨none, none, none, none⟩
          ⟨exStaying, none, none⟩ 2 (some (.int 5)) st = .ok (reps, st') ∧
        reps.length = 2 ∧ ∃ samples : List (List ℝ), samples.length = 2 ∧
          ∀ i (hi : i < samples.length) (hi' : i < reps.length), ∃ x : Fin 1 → ℝ, reps[i] = List.ofFn x ∧
            OptimisedBy ⟨exStaying, none, none⟩ [0] ((tableOf m [1, 2]).sampleLogLik samples[i] none
              (fun θ r => rowIndex m.data m.args.altIdCol (specColumns [1, 2] [("x", .allSame)]) (List.ofFn θ) r))
              (fun θ => SmoothAt m (specColumns [1, 2] [("x", .allSame)]) θ ∧ ∀ r, |rowIndex m.data m.args.altIdCol
                (specColumns [1, 2] [("x", .allSame)]) (List.ofFn θ) r| < 700) x) ∧
      ∃ reps, generateJackknifeReplicates env (pointFitter exStaying) (defaultExtract label) m 1 ⟨none, none, none, none⟩
        ⟨exStaying, none, none⟩ = .ok reps ∧ reps.length = 2 := by
  obtain ⟨d, hd, hlen, hlen'⟩ : ∃ d, createDesignMatrix env.fmt env.fmtList exTwoChoosers
      (encodeAll [("x", SpecVal.allSame)]) "alt" none = .ok d ∧ d.1.length = 1 ∧ d.2.length = 1 :=
    ⟨_, design_success env.fmt env.fmtList exTwoChoosers [("x", .allSame)] "alt" [1, 2] exTwo_ids.1
      (by simp [exTwoChoosers]) (by simp [exTwoChoosers]) (by simp [SpecVal.ValidFor])
      (by simp [SpecVal.columns]), by simp [SpecVal.columns], by simp [SpecVal.columns]⟩
  have hk : modelTypeToClass.lookup "MNL" = some .mnl := by decide
  have hint : addIntercept (encodeAll [("x", (SpecVal.allSame : SpecVal ℝ))]) exTwoChoosers = exTwoChoosers := by
    simp [addIntercept, encodeAll]
  have hargs : argsFor .mnl exLogitArgs = exLogitArgs := rfl
  obtain ⟨m, hmd⟩ : ∃ m : ChoiceModel ℝ,
      m = ⟨.mnl, displayNameOf (classOf .mnl), exTwoChoosers, d.1, d.2, exLogitArgs, none⟩ := ⟨_, rfl⟩
  have hm : createChoiceModel env "MNL" exTwoChoosers exLogitArgs = .ok m := by
    rw [hmd]
    simp only [createChoiceModel, hk]
    rw [classInit_iff, hargs]
    refine ⟨by simp [exLogitArgs], baseInit_ok.2 ⟨initChecks_ok.2 ?_, ?_⟩⟩
    · simp [exLogitArgs, exTwoChoosers, checkNamesAndRef, checkNestSpecArg]
    · have : addIntercept exLogitArgs.specification exTwoChoosers = exTwoChoosers := hint
      rw [this, initBuild_iff]
      refine ⟨?_, ?_, d, hd, ?_, rfl⟩
      · simp [exLogitArgs, exTwoChoosers, encodeAll]
      · simp [henv]
      · simp [exLogitArgs]
  refine ⟨m, hm, ?_⟩
  have hcls : m.cls = .mnl := by rw [hmd]
  have hspec : m.args.specification = encodeAll [("x", .allSame)] := by rw [hmd]; rfl
  have ha : AltsOf m.data m.args.altIdCol [1, 2] := by rw [hmd]; exact exTwo_ids.1
  have hi : AltsOf m.data m.args.obsIdCol [1, 2] := by rw [hmd]; exact exTwo_ids.2
  obtain ⟨chosen, hc⟩ : ∃ chosen, OneChoicePerObs m.data m.args.obsIdCol m.args.choiceCol chosen := by
    rw [hmd]
    refine ⟨fun o => if o = 1 then (0 : Fin 4) else (3 : Fin 4), ?_, ?_, ?_⟩ <;> intro r <;> change Fin 4 at r <;>
      fin_cases r <;> simp [exTwoChoosers, exLogitArgs]
  have hU : DocumentedUtilities (n := 1) m [1, 2] (specColumns [1, 2] [("x", .allSame)]) fun θ r =>
      rowIndex m.data m.args.altIdCol (specColumns [1, 2] [("x", .allSame)]) (List.ofFn θ) r := by
    exact mnl_documented hcls (by simp [specColumns, SpecVal.columns])
  have hcols : (specColumns [(1 : ℝ), 2] [("x", SpecVal.allSame)]).length = 1 := by simp [specColumns, SpecVal.columns]
  have hnames : m.indVarNames.length = 1 := by rw [hmd]; exact hlen'
  have hext : m.cls ≠ .mnl → ∀ labels est x, defaultExtract label m labels est 1 = .ok x → x.length = 1 :=
    fun _ _ _ _ h => default_extract_length h
  have hsol : ∀ k f x h, ∃ r, exStaying k f x h = .ok r := fun _ _ _ _ => ⟨_, rfl⟩
  constructor
  · obtain ⟨⟨reps, st'⟩, hres⟩ := mnl_bootstrap_succeeds hm hcls hspec ha hc (by
        rw [hmd]
        intro b hb
        rcases List.mem_cons.1 hb with rfl | hb
        · exact ⟨(0 : Fin 4), by simp [exTwoChoosers, exLogitArgs]⟩
        · rw [List.mem_singleton.1 hb]
          exact ⟨(3 : Fin 4), by simp [exTwoChoosers, exLogitArgs]⟩)
      (by rw [hmd]; simp [exTwoChoosers]) hcols hnames countingRng_chooses (bfgs := exStaying) (defaultExtract label)
      (mnl := ⟨none, none, none, none⟩) ⟨exStaying, none, none⟩ rfl (.inl hsol) (by simp) 2 (seed := some (.int 5)) st
      (Or.inr ⟨5, (5 : ℕ), rfl, by simp [countingRng]⟩)
    obtain ⟨h1, samples, -, h3, h4⟩ := bootstrap_replicates_maximise hm (by rw [hcls]; decide) hspec [1, 2] ha (by rw [hcls]; simp) hc
      (by rw [hmd]; simp [exTwoChoosers]) hU countingRng_chooses (fun _ => rfl) hext hres
    refine ⟨reps, st', hres, h1, samples, h3, fun i hi hi' => ?_⟩
    obtain ⟨-, x₀, x, e1, e2, e3, -⟩ := h4 i hi hi'
    rw [if_pos hcls] at e3
    rw [e2 hcls] at e3
    exact ⟨x, e1, e3⟩
  · obtain ⟨reps, hreps⟩ := mnl_jackknife_succeeds hm hcls hspec ha (by rw [hmd]; simp [exTwoChoosers])
      (by rw [hmd]; simp [exTwoChoosers, exLogitArgs, Frame.colList]) (by
        rw [hmd]
        intro b hb
        rcases List.mem_cons.1 hb with rfl | hb
        · exact ⟨(0 : Fin 4), (2 : Fin 4), by simp [exTwoChoosers, exLogitArgs]⟩
        · rw [List.mem_singleton.1 hb]
          exact ⟨(1 : Fin 4), (3 : Fin 4), by simp [exTwoChoosers, exLogitArgs]⟩)
      hcols hnames (bfgs := exStaying) (defaultExtract label) (mnl := ⟨none, none, none, none⟩)
      ⟨exStaying, none, none⟩ rfl (.inl hsol) (by simp)
    obtain ⟨h1, -⟩ := jackknife_replicates_maximise hm (by rw [hcls]; decide) hspec ha (by rw [hcls]; simp) hi hc hU (fun _ => rfl) hext hreps
    exact ⟨reps, hreps, h1⟩

end

end Pylogit
