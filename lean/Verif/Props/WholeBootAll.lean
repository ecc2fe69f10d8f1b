import Verif.Props.WholeBootRuns
import Verif.Props.WholeBootNested

/-!
# When replicates of models other than the multinomial logit can be estimated (C113, C114)
-/

open Finset

namespace Pylogit

open Spec

noncomputable section

/-! ## Specification vocabulary -/

/-- The MNL model that provides the starting values of `n` parameters can be built on the model's table and estimated: its
specification only mentions columns of the table, there is one name and one starting value per column, the positions to
be held fixed exist, the optimiser always returns; and the extraction accepts its estimates. -/
def Spec.MnlStart (env : Env ℝ) (m : ChoiceModel ℝ) (alts : List ℝ) (mnl : MnlArgs ℝ PointOptions)
    (extract : ChoiceModel ℝ → List (PyVal ℝ) → List ℝ → ℕ → Except Err (List ℝ)) (n : ℕ) : Prop :=
  ∃ (s₀ : List (String × SpecVal ℝ)) (x₀ : List ℝ) (kw : PointOptions) (m₀ : ChoiceModel ℝ),
    mnl.spec = some (encodeAll s₀) ∧ mnl.init = some x₀ ∧ mnl.kwargs = some kw ∧
    createChoiceModel env "MNL" m.data
      { altIdCol := m.args.altIdCol, obsIdCol := m.args.obsIdCol, choiceCol := m.args.choiceCol,
        specification := encodeAll s₀, names := mnl.names, interceptRefPos := .none, shapeRefPos := .none,
        interceptNames := none, shapeNames := none, nestSpec := none, mixingIdCol := none,
        mixingVars := none } = .ok m₀ ∧
    (∀ v ∈ s₀.map Prod.fst, v ∈ m.data.columns) ∧ m₀.indVarNames.length = (specColumns alts s₀).length ∧
    x₀.length = (specColumns alts s₀).length ∧ (∀ z ∈ kw.constrained.getD [], ∃ i, PosIs x₀.length z i) ∧
    (∀ k f x h, ∃ r, kw.solver k f x h = .ok r) ∧
    ∀ est : List ℝ, est.length = x₀.length → ∃ x, extract m m₀.indVarNames est n = .ok x ∧ x.length = n

/-! ## Helper lemmas -/

/-- The estimate of a replicate of a model that is not an MNL: an MNL estimate, starting values, and the estimate of the
re-created model. -/
theorem other_replicates_ok {env : Env ℝ} {ty : String} {df : Frame ℝ} {a : ModelArgs ℝ} {m : ChoiceModel ℝ}
    (hm : createChoiceModel env ty df a = .ok m) (hcls : m.cls ≠ .mnl) {s : List (String × SpecVal ℝ)}
    (hspec : m.args.specification = encodeAll s) {alts : List ℝ} (ha : AltsOf m.data m.args.altIdCol alts)
    {n : ℕ} {bfgs : Solver} {extract : ChoiceModel ℝ → List (PyVal ℝ) → List ℝ → ℕ → Except Err (List ℝ)}
    {mnl : MnlArgs ℝ PointOptions} {opts : PointOptions} (hstart : MnlStart env m alts mnl extract n) {idCol : String}
    (hfit : ∀ df' m' init, recreate env m idCol df' = .ok m' → m'.cls = m.cls → m'.data = df' →
      m'.args = { m.args with obsIdCol := idCol } → m'.design.length = m.design.length → 0 < df'.numRows →
      AltsOf df' m.args.altIdCol alts → (df'.colList idCol).Pairwise (· ≤ ·) → init.length = n →
      ∃ y, (pointFitter bfgs).fit m' init opts = .ok y ∧ y.length = n)
    {frames : List (Frame ℝ)}
    (h : ∀ df' ∈ frames, (∀ c ∈ m.data.columns, c ∈ df'.columns) ∧ idCol ∈ df'.columns ∧ 0 < df'.numRows ∧
      AltsOf df' m.args.altIdCol alts ∧ (df'.colList idCol).Pairwise (· ≤ ·)) :
    ∃ reps, replicatesOn env (pointFitter bfgs) extract m idCol n mnl opts frames = .ok reps := by
  obtain ⟨s₀, x₀, kw, m₀, k1, k2, k3, hm₀, hv₀, hnames, hlen, hcon, hsol, hext⟩ := hstart
  have hk : modelTypeToClass.lookup "MNL" = some .mnl := by decide
  have hcl0 : m₀.cls = .mnl ∧ m₀.args =
      { altIdCol := m.args.altIdCol, obsIdCol := m.args.obsIdCol, choiceCol := m.args.choiceCol,
        specification := encodeAll s₀, names := mnl.names, interceptRefPos := .none, shapeRefPos := .none,
        interceptNames := none, shapeNames := none, nestSpec := none, mixingIdCol := none,
        mixingVars := none } ∧ m₀.data = addIntercept (encodeAll s₀) m.data := by
    have h0 := hm₀
    simp only [createChoiceModel, hk] at h0
    obtain ⟨-, h2⟩ := classInit_iff.1 h0
    obtain ⟨e1, -, e3, e4⟩ := baseInit_attrs h2
    exact ⟨e1, e4, e3⟩
  obtain ⟨c1, c2, c3⟩ := hcl0
  have hint : addIntercept (encodeAll s₀) m.data = m.data := by
    rw [addIntercept, if_neg]
    rintro ⟨h1, h2⟩
    refine h2 (hv₀ _ ?_)
    simpa [encodeAll, Function.comp_def] using h1
  rw [hint] at c3
  have hdis : ¬ m.displayName = displayNameOf "MNL" := fun e => hcls ((mnl_display hm).1 e)
  have key : ∀ df' ∈ frames, ∃ row, (do
      let x ← retrievePointEst env (pointFitter bfgs) extract m df' idCol n mnl opts
      assignRow n x) = (.ok row : Except Err (List ℝ)) := by
    intro df' hdf
    obtain ⟨h1, h2, h3, h4, h5⟩ := h df' hdf
    obtain ⟨m₁, hm₁, e1, e2, e3, e4, e5⟩ := recreate_ok hm₀ (s := s₀) (by rw [c2]) (alts := alts) (by rw [c2, c3]; exact ha)
      (df' := df') (idCol := idCol) (by rw [c3]; exact h1) h2 (by rw [c2]; exact h4)
    have hobj := mnl_recreate_args hm₀ c1 hm₁
    rw [c2] at hobj
    have hdl : m₀.design.length = x₀.length := by
      have hdes := (built_own hm₀).1.design
      rw [c2] at hdes
      rw [show m₀.design = _ from design_entries (by rw [c3]; exact ha) hdes, List.length_map, hlen, specColumns]
    have a1 : m₁.args.altIdCol = m.args.altIdCol := by rw [e3, c2]
    have a2 : m₁.args.obsIdCol = idCol := by rw [e3]
    subst e2
    obtain ⟨est, hest, hel⟩ := point_estimate_ok (m := m₁) h3 (by rw [e1, c1]; decide) (by rw [e1, c1]; decide)
      (alts := alts) (by rw [a1]; exact h4) (.inl hsol) (by rw [a2]; exact h5) (fun h => absurd (e1.trans c1) h)
      (fun h => by rw [e1, c1] at h; cases h) (init := x₀)
      (by rw [e1, c1]; simp only [totalParams, fitDims]; rw [e5, hdl]) hcon
    obtain ⟨x, hx, hxl⟩ := hext est hel
    obtain ⟨m', hm', f1, f2, f3, f4, f5⟩ := recreate_ok hm hspec ha h1 h2 h4
    obtain ⟨y, hy, hyl⟩ := hfit _ m' x hm' f1 f2 f3 f5 h3 h4 h5 hxl
    have hest' : (pointFitter bfgs).fit m₁ x₀ kw = .ok est := (if_neg (by rw [e1, c1]; decide)).trans hest
    refine ⟨y, ?_⟩
    unfold retrievePointEst getMnlPointEst
    simp only [hdis, false_and, if_false, k1, k2, k3, hobj, hest', bind, Except.bind]
    rw [if_neg (by rw [e4, hnames, hel, hlen]; simp)]
    simp only [e4, hx, hm', hy]
    simp [assignRow, hyl]
  unfold replicatesOn
  choose! row hrow using key
  exact ⟨_, mapM_ok hrow⟩

/-- With an optimiser that always returns, an estimation of a nested logit on a table with rows and ascending ids returns
estimates. -/
theorem point_nested_ok {env : Env ℝ} {ty : String} {df : Frame ℝ} {a : ModelArgs ℝ} {m : ChoiceModel ℝ}
    (hm : createChoiceModel env ty df a = .ok m) (hcls : m.cls = .nested) {ns : List (String × List ℝ)}
    (hns : a.nestSpec = some (encodeNests ns)) (hk : (ns.map Prod.fst).Nodup) (hrows : 0 < m.data.numRows)
    {opts : PointOptions} (hsol : ∀ n f x h, ∃ r, opts.solver n f x h = .ok r)
    (hasc : (m.data.colList m.args.obsIdCol).Pairwise (· ≤ ·)) {init : List ℝ}
    (hl : init.length = ns.length + m.design.length)
    (hcon : ∀ z ∈ opts.constrained.getD [], ∃ i, PosIs (ns.length + m.design.length) z i) :
    ∃ y, pointNested opts m init = .ok y ∧ y.length = init.length := by
  obtain ⟨-, g, -, -, hrtn⟩ := built_nests hm hcls hns hk
  have hspec' : m.args.nestSpec = some (encodeNests ns) := (built_nestSpec hm hcls).trans hns
  have hfinal : ∀ z ∈ (some (finalConstrainedPos ns opts.constrained)).getD [],
      ∃ i, PosIs (ns.length + m.design.length) z i := by
    simp only [Option.getD_some, (constrained_positions ns opts.constrained).1]
    rintro z (⟨q, rfl, name, alt, hq⟩ | ⟨l, hl, hz⟩)
    · obtain ⟨hq', -⟩ := List.getElem?_eq_some_iff.1 hq
      exact ⟨⟨q, by omega⟩, Or.inl rfl⟩
    · exact hcon z (by rw [hl]; exact hz)
  obtain ⟨ps, hps⟩ := constrainedArg_exists.2 hfinal
  have h1 : initPlain (⟨some init, none, none, none⟩ : InitArgs ℝ) = .ok init := by simp [initPlain]
  have h2 : estimationChecks (opts.ridge.map PyVal.num) (m.data.colList m.args.obsIdCol) .none = .ok () := by
    unfold estimationChecks
    have : ensureContiguity (m.data.colList m.args.obsIdCol) = .ok () := ensureContiguity_ok.2 hasc
    cases opts.ridge <;> simp [checkRidge, this, checkWeights, bind, Except.bind]
  have h3 : checkInitLength .nested { fitDims m with numNests := ns.length } false init = .ok () := by
    simp [checkInitLength, assumedParamDimensions, fitDims, hl, add_comm]
  obtain ⟨rep, hrep⟩ := hsol _ ((nestedObject m hrows (Matrix.of fun r j => if g r = j then 1 else 0)
    opts.ridge).est ps).negLLAndGrad (fun k => init.getD k 0) ((nestedObject m hrows
    (Matrix.of fun r j => if g r = j then 1 else 0) opts.ridge).est ps).negHessian
  refine ⟨List.ofFn rep.x, ?_, by rw [List.length_ofFn, hl]; rfl⟩
  unfold pointNested
  rw [hspec', Option.bind_some, decodeNest_encode]
  have hps' : constrainedArg (nestedObject m hrows (Matrix.of fun r j => if g r = j then 1 else 0) opts.ridge).n
      (some (finalConstrainedPos ns opts.constrained)) = .ok ps := hps
  simp only [bind, Except.bind, h1, h2, h3, hrtn, hrows, dif_pos, hps', hrep]

/-! ## The properties -/

private lemma logit_fit_ok {env : Env ℝ} {m : ChoiceModel ℝ} (hn : m.cls ≠ .nested) (hx : m.cls ≠ .mixed) {alts : List ℝ}
    (ha : AltsOf m.data m.args.altIdCol alts)
    (hi : m.cls ≠ .mnl → m.args.interceptRefPos = .none ∨
      ∃ z : ℤ, m.args.interceptRefPos = .int z ∧ 0 ≤ z ∧ z < alts.length)
    (hs : m.cls = .asym → ∃ z : ℤ, m.args.shapeRefPos = .int z ∧ 0 ≤ z ∧ z < alts.length)
    {n : ℕ} (hnum : n = totalParams m.cls (fitDims m) (m.args.interceptRefPos != .none)) {bfgs : Solver}
    {opts : PointOptions} (hsol : ∀ k f x h, ∃ r, opts.solver k f x h = .ok r)
    (hcon : ∀ z ∈ opts.constrained.getD [], ∃ i, PosIs n z i) {idCol : String} :
    ∀ (df' : Frame ℝ) (m' : ChoiceModel ℝ) (init : List ℝ), recreate env m idCol df' = .ok m' → m'.cls = m.cls →
      m'.data = df' → m'.args = { m.args with obsIdCol := idCol } → m'.design.length = m.design.length →
      0 < df'.numRows → AltsOf df' m.args.altIdCol alts → (df'.colList idCol).Pairwise (· ≤ ·) → init.length = n →
      ∃ y, (pointFitter bfgs).fit m' init opts = .ok y ∧ y.length = n := by
  intro df' m' init _ f1 f2 f3 f5 h3 h4 h5 hl
  subst f2
  have a1 : m'.args.altIdCol = m.args.altIdCol := by rw [f3]
  have a2 : m'.args.obsIdCol = idCol := by rw [f3]
  have a3 : m'.args.interceptRefPos = m.args.interceptRefPos := by rw [f3]
  have a4 : m'.args.shapeRefPos = m.args.shapeRefPos := by rw [f3]
  have hd : fitDims m' = fitDims m := by
    simp only [fitDims, f5, a1, altsOf_eq ha, altsOf_eq h4]
    rw [f3]
  obtain ⟨y, hy, hyl⟩ := point_estimate_ok (m := m') h3 (by rw [f1]; exact hn) (by rw [f1]; exact hx) (alts := alts)
    (by rw [a1]; exact h4) (.inl hsol) (by rw [a2]; exact h5) (by rw [f1, a3]; exact hi) (by rw [f1, a4]; exact hs)
    (init := init) (by rw [hl, f1, hd, a3]; exact hnum) (by rw [hl]; exact hcon)
  exact ⟨y, (if_neg (by rw [f1]; exact hn)).trans hy, hyl.trans hl⟩

/-- **C113** (bootstrap of the other logit-type models never fails). For clog-log, scobit, uneven and asymmetric logit models:
if every observation of the model's table chose one row and every alternative was chosen by somebody, the reference
positions are within the alternatives, the MNL model for the starting values can be estimated on the table, the positions
to be held fixed exist and the optimiser always returns, then every bootstrap sample can be estimated, whatever is
drawn. -/
theorem other_bootstrap_succeeds {env : Env ℝ} {ty : String} {df : Frame ℝ} {a : ModelArgs ℝ} {m : ChoiceModel ℝ}
    (hm : createChoiceModel env ty df a = .ok m) (h0 : m.cls ≠ .mnl) (hn : m.cls ≠ .nested)
    (hx : m.cls ≠ .mixed) {s : List (String × SpecVal ℝ)} (hspec : m.args.specification = encodeAll s) {alts : List ℝ}
    (ha : AltsOf m.data m.args.altIdCol alts)
    (hi : m.args.interceptRefPos = .none ∨ ∃ z : ℤ, m.args.interceptRefPos = .int z ∧ 0 ≤ z ∧ z < alts.length)
    (hs : m.cls = .asym → ∃ z : ℤ, m.args.shapeRefPos = .int z ∧ 0 ≤ z ∧ z < alts.length)
    {chosen : ℝ → Fin m.data.numRows} (hc : OneChoicePerObs m.data m.args.obsIdCol m.args.choiceCol chosen)
    (hall : ∀ b ∈ alts, ∃ r, m.data.val m.args.altIdCol r = b ∧ m.data.val m.args.choiceCol r = 1)
    (hboot : "bootstrap_id" ∉ m.data.columns)
    {n : ℕ} (hnum : n = totalParams m.cls (fitDims m) (m.args.interceptRefPos != .none))
    {g : Rng} (hg : ChoosesMembers g) {bfgs : Solver}
    {extract : ChoiceModel ℝ → List (PyVal ℝ) → List ℝ → ℕ → Except Err (List ℝ)}
    {mnl : MnlArgs ℝ PointOptions} {opts : PointOptions} (hstart : MnlStart env m alts mnl extract n)
    (hsol : ∀ k f x h, ∃ r, opts.solver k f x h = .ok r)
    (hcon : ∀ z ∈ opts.constrained.getD [], ∃ i, PosIs n z i)
    (numSamples : ℕ) {seed : Option IntArg} (st : g.State)
    (hseed : seed = none ∨ ∃ k s₀, seed = some (.int k) ∧ g.seed k = .ok s₀) :
    ∃ res, bootstrapRun g env bfgs extract m n mnl opts numSamples seed st = .ok res := by
  obtain ⟨smp, frames, hsmp, hf, hgood⟩ := bootstrap_frames_ok hm ha hc hall hboot hg numSamples st hseed
  obtain ⟨reps, hreps⟩ := other_replicates_ok hm h0 hspec ha (bfgs := bfgs) (opts := opts) hstart
    (logit_fit_ok hn hx ha (fun _ => hi) hs hnum hsol hcon) hgood
  refine ⟨(reps, smp.2), ?_⟩
  unfold bootstrapRun generateBootstrapReplicates
  simp only [hsmp, hf, hreps, bind, Except.bind]

/-- **C113** (jackknife of the other logit-type models). The jackknife replicates can all be estimated if the ids of the
table ascend and every alternative occurs in the rows of at least two observations; the other conditions are those of the
bootstrap. -/
theorem other_jackknife_succeeds {env : Env ℝ} {ty : String} {df : Frame ℝ} {a : ModelArgs ℝ} {m : ChoiceModel ℝ}
    (hm : createChoiceModel env ty df a = .ok m) (h0 : m.cls ≠ .mnl) (hn : m.cls ≠ .nested)
    (hx : m.cls ≠ .mixed) {s : List (String × SpecVal ℝ)} (hspec : m.args.specification = encodeAll s) {alts : List ℝ}
    (ha : AltsOf m.data m.args.altIdCol alts)
    (hi : m.args.interceptRefPos = .none ∨ ∃ z : ℤ, m.args.interceptRefPos = .int z ∧ 0 ≤ z ∧ z < alts.length)
    (hs : m.cls = .asym → ∃ z : ℤ, m.args.shapeRefPos = .int z ∧ 0 ≤ z ∧ z < alts.length)
    (hrow : 0 < m.data.numRows) (hasc : (m.data.colList m.args.obsIdCol).Pairwise (· ≤ ·))
    (htwo : ∀ b ∈ alts, ∃ r r', m.data.val m.args.altIdCol r = b ∧ m.data.val m.args.altIdCol r' = b ∧
      m.data.val m.args.obsIdCol r ≠ m.data.val m.args.obsIdCol r')
    {n : ℕ} (hnum : n = totalParams m.cls (fitDims m) (m.args.interceptRefPos != .none)) {bfgs : Solver}
    {extract : ChoiceModel ℝ → List (PyVal ℝ) → List ℝ → ℕ → Except Err (List ℝ)}
    {mnl : MnlArgs ℝ PointOptions} {opts : PointOptions} (hstart : MnlStart env m alts mnl extract n)
    (hsol : ∀ k f x h, ∃ r, opts.solver k f x h = .ok r)
    (hcon : ∀ z ∈ opts.constrained.getD [], ∃ i, PosIs n z i) :
    ∃ reps, generateJackknifeReplicates env (pointFitter bfgs) extract m n mnl opts = .ok reps :=
  other_replicates_ok hm h0 hspec ha hstart (logit_fit_ok hn hx ha (fun _ => hi) hs hnum hsol hcon)
    (jackknife_frames_ok hm ha hrow hasc htwo)

private lemma nested_fit_ok {env : Env ℝ} {m : ChoiceModel ℝ} (hcls : m.cls = .nested) {ns : List (String × List ℝ)}
    (hns : m.args.nestSpec = some (encodeNests ns)) (hk : (ns.map Prod.fst).Nodup) {alts : List ℝ} {n : ℕ}
    (hnum : n = ns.length + m.design.length) {bfgs : Solver}
    {opts : PointOptions} (hsol : ∀ k f x h, ∃ r, opts.solver k f x h = .ok r)
    (hcon : ∀ z ∈ opts.constrained.getD [], ∃ i, PosIs n z i) {idCol : String} :
    ∀ (df' : Frame ℝ) (m' : ChoiceModel ℝ) (init : List ℝ), recreate env m idCol df' = .ok m' → m'.cls = m.cls →
      m'.data = df' → m'.args = { m.args with obsIdCol := idCol } → m'.design.length = m.design.length →
      0 < df'.numRows → AltsOf df' m.args.altIdCol alts → (df'.colList idCol).Pairwise (· ≤ ·) → init.length = n →
      ∃ y, (pointFitter bfgs).fit m' init opts = .ok y ∧ y.length = n := by
  intro df' m' init hm' f1 f2 f3 f5 h3 h4 h5 hl
  subst f2
  unfold recreate at hm'
  simp only [bind, Except.bind] at hm'
  split at hm'
  · cases hm'
  obtain ⟨y, hy, hyl⟩ := point_nested_ok hm' (f1.trans hcls) hns hk h3 hsol (by rw [f3]; exact h5) (init := init)
    (by rw [f5, hl, hnum]) (by rw [f5, ← hnum]; exact hcon)
  exact ⟨y, (if_pos (f1.trans hcls)).trans hy, hyl.trans hl⟩

/-- **C114** (bootstrap of a nested logit never fails). If every observation of the model's table chose one row and every
alternative was chosen by somebody, the MNL model for the starting values can be estimated on the table, the positions to
be held fixed exist and the optimiser always returns, then every bootstrap sample can be estimated, whatever is drawn. -/
theorem nested_bootstrap_succeeds {env : Env ℝ} {ty : String} {df : Frame ℝ} {a : ModelArgs ℝ} {m : ChoiceModel ℝ}
    (hm : createChoiceModel env ty df a = .ok m) (hcls : m.cls = .nested)
    {ns : List (String × List ℝ)} (hns : a.nestSpec = some (encodeNests ns)) (hk : (ns.map Prod.fst).Nodup)
    {s : List (String × SpecVal ℝ)} (hspec : m.args.specification = encodeAll s) {alts : List ℝ}
    (ha : AltsOf m.data m.args.altIdCol alts)
    {chosen : ℝ → Fin m.data.numRows} (hc : OneChoicePerObs m.data m.args.obsIdCol m.args.choiceCol chosen)
    (hall : ∀ b ∈ alts, ∃ r, m.data.val m.args.altIdCol r = b ∧ m.data.val m.args.choiceCol r = 1)
    (hboot : "bootstrap_id" ∉ m.data.columns) {k : ℕ} (hkk : k = (specColumns alts s).length)
    {g : Rng} (hg : ChoosesMembers g) {bfgs : Solver}
    {extract : ChoiceModel ℝ → List (PyVal ℝ) → List ℝ → ℕ → Except Err (List ℝ)}
    {mnl : MnlArgs ℝ PointOptions} {opts : PointOptions} (hstart : MnlStart env m alts mnl extract (ns.length + k))
    (hsol : ∀ k f x h, ∃ r, opts.solver k f x h = .ok r)
    (hcon : ∀ z ∈ opts.constrained.getD [], ∃ i, PosIs (ns.length + k) z i)
    (numSamples : ℕ) {seed : Option IntArg} (st : g.State)
    (hseed : seed = none ∨ ∃ k s₀, seed = some (.int k) ∧ g.seed k = .ok s₀) :
    ∃ res, bootstrapRun g env bfgs extract m (ns.length + k) mnl opts numSamples seed st = .ok res := by
  have hdes := (built_own hm).1.design
  rw [hspec] at hdes
  have hlen : k = m.design.length := by
    rw [show m.design = _ from design_entries ha hdes, List.length_map, hkk, specColumns]
  obtain ⟨smp, frames, hsmp, hf, hgood⟩ := bootstrap_frames_ok hm ha hc hall hboot hg numSamples st hseed
  obtain ⟨reps, hreps⟩ := other_replicates_ok hm (by rw [hcls]; decide) hspec ha (bfgs := bfgs) (opts := opts) hstart
    (nested_fit_ok hcls ((built_nestSpec hm hcls).trans hns) hk (by rw [hlen]) hsol hcon) hgood
  refine ⟨(reps, smp.2), ?_⟩
  unfold bootstrapRun generateBootstrapReplicates
  simp only [hsmp, hf, hreps, bind, Except.bind]

/-- **C114** (jackknife of a nested logit). The jackknife replicates can all be estimated if the ids of the table ascend and
every alternative occurs in the rows of at least two observations; the other conditions are those of the bootstrap. -/
theorem nested_jackknife_succeeds {env : Env ℝ} {ty : String} {df : Frame ℝ} {a : ModelArgs ℝ} {m : ChoiceModel ℝ}
    (hm : createChoiceModel env ty df a = .ok m) (hcls : m.cls = .nested)
    {ns : List (String × List ℝ)} (hns : a.nestSpec = some (encodeNests ns)) (hk : (ns.map Prod.fst).Nodup)
    {s : List (String × SpecVal ℝ)} (hspec : m.args.specification = encodeAll s) {alts : List ℝ}
    (ha : AltsOf m.data m.args.altIdCol alts)
    (hrow : 0 < m.data.numRows) (hasc : (m.data.colList m.args.obsIdCol).Pairwise (· ≤ ·))
    (htwo : ∀ b ∈ alts, ∃ r r', m.data.val m.args.altIdCol r = b ∧ m.data.val m.args.altIdCol r' = b ∧
      m.data.val m.args.obsIdCol r ≠ m.data.val m.args.obsIdCol r')
    {k : ℕ} (hkk : k = (specColumns alts s).length) {bfgs : Solver}
    {extract : ChoiceModel ℝ → List (PyVal ℝ) → List ℝ → ℕ → Except Err (List ℝ)}
    {mnl : MnlArgs ℝ PointOptions} {opts : PointOptions} (hstart : MnlStart env m alts mnl extract (ns.length + k))
    (hsol : ∀ k f x h, ∃ r, opts.solver k f x h = .ok r)
    (hcon : ∀ z ∈ opts.constrained.getD [], ∃ i, PosIs (ns.length + k) z i) :
    ∃ reps, generateJackknifeReplicates env (pointFitter bfgs) extract m (ns.length + k) mnl opts = .ok reps := by
  have hdes := (built_own hm).1.design
  rw [hspec] at hdes
  have hlen : k = m.design.length := by
    rw [show m.design = _ from design_entries ha hdes, List.length_map, hkk, specColumns]
  exact other_replicates_ok hm (by rw [hcls]; decide) hspec ha hstart
    (nested_fit_ok hcls ((built_nestSpec hm hcls).trans hns) hk (by rw [hlen]) hsol hcon)
    (jackknife_frames_ok hm ha hrow hasc htwo)

/-! ## Non-vacuity -/

/-- The arguments of a nested logit with one nest per alternative. -/
def exNestedBootArgs : ModelArgs ℝ := { exLogitArgs with nestSpec := some (encodeNests exTwoNests) }

/-- The keyword arguments for the MNL starting values: one coefficient, from zero. -/
def exMnlStart : MnlArgs ℝ PointOptions :=
  ⟨some (encodeAll [("x", .allSame)]), none, some [0], some ⟨exStaying, none, none⟩⟩

private lemma exTwo_builds {env : Env ℝ} (henv : env.badCol = fun _ => false) (hint : env.isInt = fun _ => true) :
    ∃ m m₀ : ChoiceModel ℝ, createChoiceModel env "Nested Logit" exTwoChoosers exNestedBootArgs = .ok m ∧
      m.cls = .nested ∧ m.data = exTwoChoosers ∧ m.args = exNestedBootArgs ∧
      createChoiceModel env "MNL" exTwoChoosers exLogitArgs = .ok m₀ ∧ m₀.indVarNames.length = 1 := by
  obtain ⟨d, hd, hlen, hlen'⟩ : ∃ d, createDesignMatrix env.fmt env.fmtList exTwoChoosers
      (encodeAll [("x", SpecVal.allSame)]) "alt" none = .ok d ∧ d.1.length = 1 ∧ d.2.length = 1 :=
    ⟨_, design_success env.fmt env.fmtList exTwoChoosers [("x", .allSame)] "alt" [1, 2] exTwo_ids.1
      (by simp [exTwoChoosers]) (by simp [exTwoChoosers]) (by simp [SpecVal.ValidFor])
      (by simp [SpecVal.columns]), by simp [SpecVal.columns], by simp [SpecVal.columns]⟩
  have hk : modelTypeToClass.lookup "MNL" = some .mnl := by decide
  have hk' : modelTypeToClass.lookup "Nested Logit" = some .nested := by decide
  have hadd : addIntercept (encodeAll [("x", (SpecVal.allSame : SpecVal ℝ))]) exTwoChoosers = exTwoChoosers := by
    simp [addIntercept, encodeAll]
  have hargs : argsFor .mnl exLogitArgs = exLogitArgs := rfl
  refine ⟨⟨.nested, displayNameOf (classOf .nested), exTwoChoosers, d.1, d.2, exNestedBootArgs, none⟩,
    ⟨.mnl, displayNameOf (classOf .mnl), exTwoChoosers, d.1, d.2, exLogitArgs, none⟩, ?_, rfl, rfl, rfl, ?_, hlen'⟩
  · simp only [createChoiceModel, hk']
    rw [classInit_iff]
    refine ⟨by simp [exNestedBootArgs, exLogitArgs], baseInit_ok.2 ⟨initChecks_ok.2 ⟨?_, ?_, ?_, ?_⟩, ?_⟩⟩
    · simp [exNestedBootArgs, exLogitArgs, exTwoChoosers, argsFor]
    · simp [exNestedBootArgs, exLogitArgs, checkNamesAndRef, argsFor]
    · simp [exNestedBootArgs, exLogitArgs, checkNamesAndRef, argsFor]
    · rw [checkNestSpecArg_ok (mem_allIds _ _)]
      rintro l hl
      refine ⟨exTwoNests, (Option.some.inj hl).symm, ?_⟩
      have hcol : exTwoChoosers.colList (argsFor .nested exNestedBootArgs).altIdCol = [1, 2, 1, 2] := by
        simp [Frame.colList, exTwoChoosers, argsFor, exLogitArgs, exNestedBootArgs]
      rw [hcol]
      exact ⟨by simp [exTwoNests], by simp [exTwoNests], by simp [hint],
        by simp [exTwoNests], by simp [exTwoNests]⟩
    · have : addIntercept (argsFor .nested exNestedBootArgs).specification exTwoChoosers = exTwoChoosers :=
        hadd
      rw [this, initBuild_iff]
      refine ⟨?_, ?_, d, hd, ?_, rfl⟩
      · simp [exNestedBootArgs, exLogitArgs, exTwoChoosers, encodeAll, argsFor]
      · simp [henv]
      · simp [exNestedBootArgs, exLogitArgs, argsFor]
  · simp only [createChoiceModel, hk]
    rw [classInit_iff, hargs]
    refine ⟨by simp [exLogitArgs], baseInit_ok.2 ⟨initChecks_ok.2 ?_, ?_⟩⟩
    · simp [exLogitArgs, exTwoChoosers, checkNamesAndRef, checkNestSpecArg]
    · have : addIntercept exLogitArgs.specification exTwoChoosers = exTwoChoosers := hadd
      rw [this, initBuild_iff]
      refine ⟨?_, ?_, d, hd, ?_, rfl⟩
      · simp [exLogitArgs, exTwoChoosers, encodeAll]
      · simp [henv]
      · simp [exLogitArgs]

/-- Non-vacuity of the theorems on replicates of a nested logit: two people with two alternatives, a nest per alternative,
two bootstrap samples from a seed, and the jackknife. -/
example (env : Env ℝ) (henv : env.badCol = fun _ => false) (hint : env.isInt = fun _ => true)
    (label : PyVal ℝ → String) (st : ℕ) :
    ∃ m, createChoiceModel env "Nested Logit" exTwoChoosers exNestedBootArgs = .ok m ∧
      (∃ reps st', bootstrapRun countingRng env exStaying (defaultExtract label) m 3 exMnlStart
          ⟨exStaying, none, none⟩ 2 (some (.int 5)) st = .ok (reps, st') ∧
        reps.length = 2) ∧
      ∃ reps, generateJackknifeReplicates env (pointFitter exStaying) (defaultExtract label) m 3 exMnlStart
        ⟨exStaying, none, none⟩ = .ok reps ∧ reps.length = 2 := by
  obtain ⟨m, m₀, hm, hcls, hdat, hargs, hm₀, hlen⟩ := exTwo_builds henv hint
  refine ⟨m, hm, ?_⟩
  have hspec : m.args.specification = encodeAll [("x", .allSame)] := by rw [hargs]; rfl
  have ha : AltsOf m.data m.args.altIdCol [1, 2] := by rw [hdat, hargs]; exact exTwo_ids.1
  have hi : AltsOf m.data m.args.obsIdCol [1, 2] := by rw [hdat, hargs]; exact exTwo_ids.2
  obtain ⟨chosen, hc⟩ : ∃ chosen, OneChoicePerObs m.data m.args.obsIdCol m.args.choiceCol chosen := by
    rw [hdat, hargs]
    refine ⟨fun o => if o = 1 then (0 : Fin 4) else (3 : Fin 4), ?_, ?_, ?_⟩ <;> intro r <;> change Fin 4 at r <;>
      fin_cases r <;> simp [exTwoChoosers, exLogitArgs, exNestedBootArgs]
  obtain ⟨g, hg⟩ : ∃ g : Fin m.data.numRows → Fin exTwoNests.length,
      ∀ r, m.data.val m.args.altIdCol r ∈ (exTwoNests.get (g r)).2 := by
    rw [hdat, hargs]
    refine ⟨fun r : Fin 4 => (![0, 1, 0, 1] r : Fin 2), fun r => ?_⟩
    change Fin 4 at r
    fin_cases r <;> simp [exTwoChoosers, exLogitArgs, exNestedBootArgs, exTwoNests]
  have hnd : (exTwoNests.map Prod.fst).Nodup := by simp [exTwoNests]
  have hcols : 1 = (specColumns [(1 : ℝ), 2] [("x", SpecVal.allSame)]).length := by
    simp [specColumns, SpecVal.columns]
  have hsol : ∀ k f x h, ∃ r, exStaying k f x h = .ok r := fun _ _ _ _ => ⟨_, rfl⟩
  have hstart : MnlStart env m [1, 2] exMnlStart (defaultExtract label) (exTwoNests.length + 1) := by
    refine ⟨[("x", .allSame)], [0], ⟨exStaying, none, none⟩, m₀, rfl, rfl, rfl, ?_, ?_, ?_, ?_, by simp, hsol, ?_⟩
    · rw [hdat, hargs]; exact hm₀
    · rw [hdat]; simp [exTwoChoosers]
    · rw [hlen, ← hcols]
    · rw [← hcols]; rfl
    · intro est hest
      have hne : est ≠ [] := by rintro rfl; simp at hest
      have hle : est.length ≤ exTwoNests.length + 1 := by rw [hest]; simp [exTwoNests]
      refine ⟨_, default_extract_inside ha (by rw [hargs]; rfl) (by rw [hargs]; rfl) hne hle, ?_⟩
      simp [hle]
  constructor
  · obtain ⟨⟨reps, st'⟩, hres⟩ := nested_bootstrap_succeeds hm hcls (ns := exTwoNests) rfl hnd hspec ha hc (by
        rw [hdat, hargs]
        intro b hb
        rcases List.mem_cons.1 hb with rfl | hb
        · exact ⟨(0 : Fin 4), by simp [exTwoChoosers, exLogitArgs, exNestedBootArgs]⟩
        · rw [List.mem_singleton.1 hb]
          exact ⟨(3 : Fin 4), by simp [exTwoChoosers, exLogitArgs, exNestedBootArgs]⟩)
      (by rw [hdat]; simp [exTwoChoosers]) hcols countingRng_chooses (bfgs := exStaying) (opts := ⟨exStaying, none, none⟩)
      hstart hsol (by simp) 2 (seed := some (.int 5)) st (Or.inr ⟨5, (5 : ℕ), rfl, by simp [countingRng]⟩)
    obtain ⟨h1, -⟩ := nested_bootstrap_maximises_partial hm hcls (ns := exTwoNests) rfl hnd hspec [1, 2] ha hc
      (by rw [hdat]; simp [exTwoChoosers]) hg hcols countingRng_chooses hres
    exact ⟨reps, st', hres, h1⟩
  · obtain ⟨reps, hreps⟩ := nested_jackknife_succeeds hm hcls (ns := exTwoNests) rfl hnd hspec ha
      (by rw [hdat]; simp [exTwoChoosers])
      (by rw [hdat, hargs]; simp [exTwoChoosers, exLogitArgs, exNestedBootArgs, Frame.colList]) (by
        rw [hdat, hargs]
        intro b hb
        rcases List.mem_cons.1 hb with rfl | hb
        · exact ⟨(0 : Fin 4), (2 : Fin 4), by simp [exTwoChoosers, exLogitArgs, exNestedBootArgs]⟩
        · rw [List.mem_singleton.1 hb]
          exact ⟨(1 : Fin 4), (3 : Fin 4), by simp [exTwoChoosers, exLogitArgs, exNestedBootArgs]⟩)
      hcols (bfgs := exStaying) (opts := ⟨exStaying, none, none⟩) hstart hsol (by simp)
    obtain ⟨h1, -⟩ := nested_jackknife_maximises_partial hm hcls (ns := exTwoNests) rfl hnd hspec ha hi hc hg hcols hreps
    exact ⟨reps, hreps, h1⟩

/-- Non-vacuity of the theorems on the other logit-type models: a scobit model of the same people, with two shape
parameters and one coefficient. -/
example (env : Env ℝ) (henv : env.badCol = fun _ => false) (hint : env.isInt = fun _ => true)
    (label : PyVal ℝ → String) (st : ℕ) :
    ∃ m, createChoiceModel env "Scobit" exTwoChoosers exLogitArgs = .ok m ∧
      (∃ res, bootstrapRun countingRng env exStaying (defaultExtract label) m 3 exMnlStart
          ⟨exStaying, none, none⟩ 2 (some (.int 5)) st = .ok res) ∧
      ∃ reps, generateJackknifeReplicates env (pointFitter exStaying) (defaultExtract label) m 3 exMnlStart
        ⟨exStaying, none, none⟩ = .ok reps := by
  obtain ⟨-, m₀, -, -, -, -, hm₀, hlen⟩ := exTwo_builds henv hint
  obtain ⟨d, hd, hlen1⟩ : ∃ d, createDesignMatrix env.fmt env.fmtList exTwoChoosers
      (encodeAll [("x", SpecVal.allSame)]) "alt" none = .ok d ∧ d.1.length = 1 :=
    ⟨_, design_success env.fmt env.fmtList exTwoChoosers [("x", .allSame)] "alt" [1, 2] exTwo_ids.1
      (by simp [exTwoChoosers]) (by simp [exTwoChoosers]) (by simp [SpecVal.ValidFor])
      (by simp [SpecVal.columns]), by simp [SpecVal.columns]⟩
  have hk : modelTypeToClass.lookup "Scobit" = some .scobit := by decide
  have hadd : addIntercept (encodeAll [("x", (SpecVal.allSame : SpecVal ℝ))]) exTwoChoosers = exTwoChoosers := by
    simp [addIntercept, encodeAll]
  have hargs : argsFor .scobit exLogitArgs = exLogitArgs := rfl
  obtain ⟨m, hmd⟩ : ∃ m : ChoiceModel ℝ,
      m = ⟨.scobit, displayNameOf (classOf .scobit), exTwoChoosers, d.1, d.2, exLogitArgs, none⟩ := ⟨_, rfl⟩
  have hm : createChoiceModel env "Scobit" exTwoChoosers exLogitArgs = .ok m := by
    rw [hmd]
    simp only [createChoiceModel, hk]
    rw [classInit_iff, hargs]
    refine ⟨by simp [exLogitArgs], baseInit_ok.2 ⟨initChecks_ok.2 ?_, ?_⟩⟩
    · simp [exLogitArgs, exTwoChoosers, checkNamesAndRef, checkNestSpecArg]
    · have : addIntercept exLogitArgs.specification exTwoChoosers = exTwoChoosers := hadd
      rw [this, initBuild_iff]
      refine ⟨?_, ?_, d, hd, ?_, rfl⟩
      · simp [exLogitArgs, exTwoChoosers, encodeAll]
      · simp [henv]
      · simp [exLogitArgs]
  refine ⟨m, hm, ?_⟩
  have hcls : m.cls = .scobit := by rw [hmd]
  have hspec : m.args.specification = encodeAll [("x", .allSame)] := by rw [hmd]; rfl
  have ha : AltsOf m.data m.args.altIdCol [1, 2] := by rw [hmd]; exact exTwo_ids.1
  obtain ⟨chosen, hc⟩ : ∃ chosen, OneChoicePerObs m.data m.args.obsIdCol m.args.choiceCol chosen := by
    rw [hmd]
    refine ⟨fun o => if o = 1 then (0 : Fin 4) else (3 : Fin 4), ?_, ?_, ?_⟩ <;> intro r <;> change Fin 4 at r <;>
      fin_cases r <;> simp [exTwoChoosers, exLogitArgs]
  have hsol : ∀ k f x h, ∃ r, exStaying k f x h = .ok r := fun _ _ _ _ => ⟨_, rfl⟩
  have hnum : 3 = totalParams m.cls (fitDims m) (m.args.interceptRefPos != .none) := by
    have h1 : (fitDims m).numAlts = 2 := congrArg List.length (altsOf_eq ha)
    have h2 : (fitDims m).numIndex = 1 := by rw [fitDims, hmd]; exact hlen1
    have h3 : m.args.interceptRefPos = .none := by rw [hmd]; rfl
    rw [hcls, h3]
    simp [totalParams, h1, h2]
  have hstart : MnlStart env m [1, 2] exMnlStart (defaultExtract label) 3 := by
    refine ⟨[("x", .allSame)], [0], ⟨exStaying, none, none⟩, m₀, rfl, rfl, rfl, ?_, ?_, ?_, ?_, by simp, hsol, ?_⟩
    · rw [hmd]; exact hm₀
    · rw [hmd]; simp [exTwoChoosers]
    · rw [hlen]; simp [specColumns, SpecVal.columns]
    · simp [specColumns, SpecVal.columns]
    · intro est hest
      have hne : est ≠ [] := by rintro rfl; simp at hest
      have hle : est.length ≤ 3 := by rw [hest]; simp
      refine ⟨_, default_extract_inside ha (by rw [hmd]; rfl) (by rw [hmd]; rfl) hne hle, ?_⟩
      simp [hle]
  have hi : m.args.interceptRefPos = .none := by rw [hmd]; rfl
  constructor
  · exact other_bootstrap_succeeds hm (by rw [hcls]; decide) (by rw [hcls]; decide) (by rw [hcls]; decide) hspec ha
      (Or.inl hi) (by rw [hcls]; simp) hc (by
        rw [hmd]
        intro b hb
        rcases List.mem_cons.1 hb with rfl | hb
        · exact ⟨(0 : Fin 4), by simp [exTwoChoosers, exLogitArgs]⟩
        · rw [List.mem_singleton.1 hb]
          exact ⟨(3 : Fin 4), by simp [exTwoChoosers, exLogitArgs]⟩)
      (by rw [hmd]; simp [exTwoChoosers]) hnum countingRng_chooses hstart hsol (by simp) 2 (seed := some (.int 5)) st
      (Or.inr ⟨5, (5 : ℕ), rfl, by simp [countingRng]⟩)
  · exact other_jackknife_succeeds hm (by rw [hcls]; decide) (by rw [hcls]; decide) (by rw [hcls]; decide) hspec ha
      (Or.inl hi) (by rw [hcls]; simp) (by rw [hmd]; simp [exTwoChoosers])
      (by rw [hmd]; simp [exTwoChoosers, exLogitArgs, Frame.colList]) (by
        rw [hmd]
        intro b hb
        rcases List.mem_cons.1 hb with rfl | hb
        · exact ⟨(0 : Fin 4), (2 : Fin 4), by simp [exTwoChoosers, exLogitArgs]⟩
        · rw [List.mem_singleton.1 hb]
          exact ⟨(1 : Fin 4), (3 : Fin 4), by simp [exTwoChoosers, exLogitArgs]⟩)
      hnum hstart hsol (by simp)

end

end Pylogit
