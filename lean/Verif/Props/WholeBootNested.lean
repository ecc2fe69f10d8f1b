import Verif.Props.WholeBoot
import Verif.Props.WholeFitNested

/-!
# Replicates of nested logit models maximise the log-likelihood of the resampled data (C114)
-/

open Finset

namespace Pylogit

open Spec

noncomputable section

/-! ## Helper lemmas: nests -/

theorem decodeNest_encode (ns : List (String × List ℝ)) : (encodeNests ns).mapM decodeNest = some ns := by
  have h : ∀ l : List ℝ, (l.map PyVal.num).mapM pyNumber = some l := by
    intro l
    induction l with
    | nil => rfl
    | cons a l ih => simp [List.mapM_cons, ih, pyNumber]
  unfold encodeNests
  induction ns with
  | nil => rfl
  | cons p ns ih =>
    rw [List.map_cons, List.mapM_cons, ih]
    simp [decodeNest, h]

/-- The alternatives of the table of a nested logit model are those of its nests. -/
theorem built_nest_alts {env : Env ℝ} {ty : String} {df : Frame ℝ} {a : ModelArgs ℝ} {m : ChoiceModel ℝ}
    (hm : createChoiceModel env ty df a = .ok m) (hcls : m.cls = .nested) {ns : List (String × List ℝ)}
    (hns : a.nestSpec = some (encodeNests ns)) (b : ℝ) :
    (∃ n ∈ ns, b ∈ n.2) ↔ ∃ r, m.data.val m.args.altIdCol r = b := by
  unfold createChoiceModel at hm
  split at hm
  · cases hm
  rename_i cls hlk
  rw [classInit_iff] at hm
  obtain ⟨-, hm⟩ := hm
  obtain ⟨h1, h2⟩ := baseInit_ok.1 hm
  obtain ⟨c1, -, -, c4⟩ := initChecks_ok.1 h1
  obtain ⟨-, -, d, hd, -, rfl⟩ := initBuild_iff.1 h2
  simp only at hcls
  subst hcls
  rw [checkNestSpecArg_ok (mem_allIds df _)] at c4
  obtain ⟨t, ht, hp⟩ := c4 _ hns
  have : ns = t := by
    refine List.map_injective_iff.2 ?_ ht
    rintro ⟨a, b⟩ ⟨c, d⟩ e
    simp only [Prod.mk.injEq, PyVal.str.injEq, PyVal.list.injEq] at e
    have hinj : Function.Injective (PyVal.num : ℝ → PyVal ℝ) := fun x y e => by injection e
    exact Prod.ext e.1 (List.map_injective_iff.2 hinj e.2)
  subst this
  have hcol : (∃ r, (addIntercept a.specification df).val a.altIdCol r = b) ↔ b ∈ df.colList a.altIdCol := by
    rw [← addIntercept_colList a.specification df _ (c1 _ (by simp [argsFor]))]
    exact mem_colList.symm
  refine Iff.trans ?_ hcol.symm
  constructor
  · rintro ⟨n, hn, hb⟩
    exact hp.foreign n hn b hb
  · intro hb
    have := hp.once b hb
    have hpos : 0 < (ns.flatMap Prod.snd).count b := by omega
    obtain ⟨n, hn, hb'⟩ := List.mem_flatMap.1 (List.count_pos_iff.1 hpos)
    exact ⟨n, hn, hb'⟩

/-! ## Helper lemmas: probabilities of copies -/

open Classical in
/-- The nested logit probability of a row among the rows `L` of its observation, from their cells. -/
private def cellNested {N : ℕ} (G : (String → ℝ) → Fin N) (φ : (String → ℝ) → ℝ) (lam : Fin N → ℝ)
    (L : List (String → ℝ)) (row : String → ℝ) : ℝ :=
  let S := fun q => (L.map fun row => if G row = q then Real.exp (φ row / lam q) else 0).sum
  S (G row) ^ lam (G row) / (∑ q with ∃ row ∈ L, G row = q, S q ^ lam q) * (Real.exp (φ row / lam (G row)) / S (G row))

open Classical in
private lemma nested_cells {N : ℕ} (df : Frame ℝ) (obsCol : String) {g : Fin df.numRows → Fin N}
    {G : (String → ℝ) → Fin N} (hg : ∀ r, g r = G fun c => df.val c r) {u : Fin df.numRows → ℝ}
    {φ : (String → ℝ) → ℝ} (hu : ∀ r, u r = φ fun c => df.val c r) (lam : Fin N → ℝ) (r : Fin df.numRows) :
    Spec.nestedProb (df.val obsCol) g u lam r =
      cellNested G φ lam (obsRows df obsCol (df.val obsCol r)) fun c => df.val c r := by
  have hS : ∀ o q, nestSum (df.val obsCol) g u lam o q =
      ((obsRows df obsCol o).map fun row => if G row = q then Real.exp (φ row / lam q) else 0).sum := by
    intro o q
    rw [sum_obsRows]
    unfold nestSum nestRows
    rw [← Finset.sum_filter, Finset.filter_filter]
    simp only [hg, hu]
  have hA : ∀ o, availNests (df.val obsCol) g o =
      ({q | ∃ row ∈ obsRows df obsCol o, G row = q} : Finset (Fin N)) := by
    intro o
    ext q
    rw [availNests, Finset.mem_filter, Finset.mem_filter]
    simp only [nestRows, Finset.mem_filter, Finset.Nonempty, Finset.mem_univ, true_and, obsRows, List.mem_map, List.mem_filter, List.mem_finRange,
      decide_eq_true_eq]
    constructor
    · rintro ⟨r, h1, h2⟩
      exact ⟨_, ⟨r, h1, rfl⟩, (hg r).symm.trans h2⟩
    · rintro ⟨row, ⟨r, h1, rfl⟩, h2⟩
      exact ⟨r, h1, (hg r).trans h2⟩
  unfold Spec.nestedProb nestProb condProb cellNested
  simp only [hS, hA, hg, hu]

private lemma cellNested_copy {N : ℕ} {G : (String → ℝ) → Fin N} {φ : (String → ℝ) → ℝ} {C : List String}
    (hG : ∀ row row', (∀ c ∈ C, row' c = row c) → G row' = G row)
    (hφ : ∀ row row', (∀ c ∈ C, row' c = row c) → φ row' = φ row) (lam : Fin N → ℝ) (L : List (String → ℝ))
    {tag : (String → ℝ) → String → ℝ} (htag : ∀ row, ∀ c ∈ C, tag row c = row c) (row : String → ℝ) :
    cellNested G φ lam (L.map tag) (tag row) = cellNested G φ lam L row := by
  have h1 : ∀ row, G (tag row) = G row := fun row => hG _ _ (htag row)
  have h2 : ∀ row, φ (tag row) = φ row := fun row => hφ _ _ (htag row)
  unfold cellNested
  simp only [List.map_map, Function.comp_def, h1, h2, List.mem_map, exists_exists_and_eq_and]

private lemma nestedObs_copy {N : ℕ} {D D' : LongData} (hch : D'.choiceCol = D.choiceCol) {C : List String}
    (hcol : D.choiceCol ∈ C) {G : (String → ℝ) → Fin N} {φ : (String → ℝ) → ℝ}
    (hG : ∀ row row', (∀ c ∈ C, row' c = row c) → G row' = G row)
    (hφ : ∀ row row', (∀ c ∈ C, row' c = row c) → φ row' = φ row) {lam : Fin N → ℝ}
    {g : Fin D.df.numRows → Fin N} {g' : Fin D'.df.numRows → Fin N} (hg : ∀ r, g r = G fun c => D.df.val c r)
    (hg' : ∀ r, g' r = G fun c => D'.df.val c r)
    {u : Fin D.df.numRows → ℝ} {u' : Fin D'.df.numRows → ℝ} (hu : ∀ r, u r = φ fun c => D.df.val c r)
    (hu' : ∀ r, u' r = φ fun c => D'.df.val c r) {i o : ℝ} {tag : (String → ℝ) → String → ℝ}
    (htag : ∀ row, ∀ c ∈ C, tag row c = row c)
    (h : obsRows D'.df D'.obsCol i = (obsRows D.df D.obsCol o).map tag) :
    ∑ r ∈ D'.rows i, D'.y r * Real.log (Spec.nestedProb (D'.df.val D'.obsCol) g' u' lam r) =
      ∑ r ∈ D.rows o, D.y r * Real.log (Spec.nestedProb (D.df.val D.obsCol) g u lam r) := by
  have key : ∀ (D : LongData) {g : Fin D.df.numRows → Fin N} (hg : ∀ r, g r = G fun c => D.df.val c r)
      {u : Fin D.df.numRows → ℝ} (hu : ∀ r, u r = φ fun c => D.df.val c r) (o : ℝ),
      ∑ r ∈ D.rows o, D.y r * Real.log (Spec.nestedProb (D.df.val D.obsCol) g u lam r) =
        ((obsRows D.df D.obsCol o).map fun row => row D.choiceCol *
          Real.log (cellNested G φ lam (obsRows D.df D.obsCol o) row)).sum := by
    intro D g hg u hu o
    rw [sum_obsRows]
    unfold LongData.rows
    refine Finset.sum_congr rfl fun r hr => ?_
    rw [Finset.mem_filter] at hr
    rw [nested_cells D.df D.obsCol hg hu, hr.2]
    rfl
  rw [key D' hg' hu', key D hg hu, h, hch]
  simp only [List.map_map, Function.comp_def, htag _ _ hcol, cellNested_copy hG hφ lam _ htag]

/-! ## Helper lemmas: the estimate on one table -/

private lemma point_nested_run {opts : PointOptions} {m : ChoiceModel ℝ} {ns : List (String × List ℝ)}
    (hns : m.args.nestSpec = some (encodeNests ns)) {init y : List ℝ} (h : pointNested opts m init = .ok y) :
    ∃ (rtn : _) (hrows : 0 < m.data.numRows) (ps : _) (rep : _), m.data.rowsToNests m.args.altIdCol ns = .ok rtn ∧
      init.length = ns.length + m.design.length ∧ (m.data.colList m.args.obsIdCol).Pairwise (· ≤ ·) ∧
      constrainedArg (ns.length + m.design.length) (some (finalConstrainedPos ns opts.constrained)) = .ok ps ∧
      opts.solver (ns.length + m.design.length) ((nestedObject m hrows rtn opts.ridge).est ps).negLLAndGrad
        (fun k => init.getD k 0) ((nestedObject m hrows rtn opts.ridge).est ps).negHessian = .ok rep ∧
      y = List.ofFn rep.x := by
  unfold pointNested at h
  rw [hns, Option.bind_some, decodeNest_encode] at h
  simp only [bind, Except.bind] at h
  split at h
  · cases h
  rename_i x hx
  obtain rfl : x = init := by simpa [initPlain, eq_comm] using hx
  split at h
  · cases h
  rename_i rtn hrtn
  split at h
  · cases h
  rename_i u hu
  split at h
  · cases h
  rename_i u' hu'
  split at h
  · rename_i hrows
    split at h
    · cases h
    rename_i ps hps
    split at h
    · cases h
    rename_i rep hrep
    cases h
    refine ⟨rtn, hrows, ps, rep, hrtn, ?_, ?_, hps, hrep, rfl⟩
    · unfold checkInitLength at hu'
      split_ifs at hu' with hl
      simp only [assumedParamDimensions, fitDims] at hl
      omega
    · unfold estimationChecks at hu
      simp only [bind, Except.bind] at hu
      split at hu
      · cases hu
      split at hu
      · cases hu
      rename_i u1 hu1
      exact ensureContiguity_ok.1 hu1
  · cases h

/-- The point estimate of a nested logit model optimises its log-likelihood. -/
theorem nested_point_optimised {env : Env ℝ} {ty : String} {df : Frame ℝ} {a : ModelArgs ℝ} {m : ChoiceModel ℝ}
    (hm : createChoiceModel env ty df a = .ok m) (hcls : m.cls = .nested) {ns : List (String × List ℝ)}
    (hns : a.nestSpec = some (encodeNests ns)) (hk : (ns.map Prod.fst).Nodup) {s : List (String × SpecVal ℝ)}
    (hspec : m.args.specification = encodeAll s) {alts ids : List ℝ} (ha : AltsOf m.data m.args.altIdCol alts)
    (hids : AltsOf m.data m.args.obsIdCol ids) {chosen : ℝ → Fin m.data.numRows}
    (hc : OneChoicePerObs m.data m.args.obsIdCol m.args.choiceCol chosen)
    {g : Fin m.data.numRows → Fin ns.length} (hg : ∀ r, m.data.val m.args.altIdCol r ∈ (ns.get (g r)).2)
    {k : ℕ} (hkk : k = (specColumns alts s).length) {opts : PointOptions} {init y : List ℝ}
    (h : pointNested opts m init = .ok y) :
    ∃ x : Fin (ns.length + k) → ℝ, y = List.ofFn x ∧
      NestedOptimisedBy opts ns init ((tableOf m ids).nestedLogLik opts.ridge g fun (β : Fin k → ℝ) r =>
          rowIndex m.data m.args.altIdCol (specColumns alts s) (List.ofFn β) r)
        (opts.ridge.getD 0 = 0 ∧ ∀ o ∈ ids, ∀ q, ∃ r ∈ (tableOf m ids).rows o, g r = q) x := by
  have hspec' : m.args.nestSpec = some (encodeNests ns) := (built_nestSpec hm hcls).trans hns
  obtain ⟨rtn, hrows, ps, rep, hrtn, hlen, hasc, hps, hrep, rfl⟩ := point_nested_run hspec' h
  obtain ⟨-, g', hg', hgi, hrtn'⟩ := built_nests hm hcls hns hk
  obtain rfl : g = g' := funext fun r => ((hgi r (g r)).2 (hg r)).symm
  rw [hrtn'] at hrtn
  cases hrtn
  have hdes := (built_own hm).1.design
  rw [hspec] at hdes
  have hcols : m.design = (specColumns alts s).map fun d => d.value m.data m.args.altIdCol := design_entries ha hdes
  obtain rfl : k = m.design.length := by rw [hcols, List.length_map, hkk]
  set V : (Fin m.design.length → ℝ) → Fin m.data.numRows → ℝ :=
    fun β r => rowIndex m.data m.args.altIdCol (specColumns alts s) (List.ofFn β) r with hVdef
  have hV : ∀ β, (modelFitData m).design.mulVec β = V β := fun β => funext fun r => design_dot hcols β r
  obtain ⟨f1, f2, -, -⟩ := nested_facts (m := m) hrows (g := g)
    (Q := Matrix.of fun r j => if g r = j then 1 else 0) (fun r j => by rfl) hc hasc hids opts.ridge hV
  have hrpt := optimiser_report hps (reindex_positions _ ps) (f1 ps) (Good := fun _ => True)
    (E := (tableOf m ids).nestedExcess opts.ridge g) (fun θ _ => f2 ps θ) hlen hrep
    (t := { (freshFit (fun _ => "") m).attrs with success := some rep.success, message := some rep.message })
    rfl rfl
  obtain ⟨hl, f, hh, rep', hrun, hx', -, -, -, hf, hfix, hfree⟩ := hrpt
  refine ⟨rep.x, rfl, hl, finalConstrainedPos ns opts.constrained, f, hh, rep', ?_, hrun, hx', hf, hfix,
    fun θ i hgood hi => ?_⟩
  · intro z
    rw [(constrained_positions ns opts.constrained).1 z]
    refine or_congr Iff.rfl ?_
    cases opts.constrained <;> simp
  · have hE : (tableOf m ids).nestedExcess opts.ridge g θ i = 0 := by
      obtain ⟨e1, e2⟩ := nested_excess_none (k := m.design.length) (tableOf m ids) opts.ridge g θ
      rcases hgood with hi | ⟨h0, hall⟩
      · have : i = Fin.natAdd ns.length ⟨i.val - ns.length, by have := i.2; omega⟩ := by
          ext
          simp only [Fin.val_natAdd]
          omega
        rw [this]
        exact e1 _
      · rw [e2 hall h0]
    have := hfree θ trivial i hi
    rwa [hE, add_zero] at this

/-- The index of a row from its cells. -/
private def cellIndex (altCol : String) (cols : List (ColDesc ℝ)) (beta : List ℝ) (row : String → ℝ) : ℝ :=
  ((cols.zip beta).map fun p => p.1.valueAt (row altCol) row * p.2).sum

private lemma cellIndex_congr {altCol : String} {alts : List ℝ} {s : List (String × SpecVal ℝ)} {C : List String}
    (halt : altCol ∈ C) (hs : ∀ v ∈ s.map Prod.fst, v ∈ C) {beta : List ℝ} {row row' : String → ℝ}
    (h : ∀ c ∈ C, row' c = row c) :
    cellIndex altCol (specColumns alts s) beta row' = cellIndex altCol (specColumns alts s) beta row := by
  unfold cellIndex
  congr 1
  refine List.map_congr_left fun p hp => ?_
  obtain ⟨v, hv, hd⟩ := specColumns_var (List.of_mem_zip hp).1
  have hv' := h v (hs v hv)
  rcases hd with hd | ⟨a, hd⟩ | ⟨l, hd⟩ <;> rw [hd] <;> simp only [ColDesc.valueAt, hv', h altCol halt]

private lemma rowIndex_cell (df : Frame ℝ) (altCol : String) (cols : List (ColDesc ℝ)) (beta : List ℝ)
    (r : Fin df.numRows) : rowIndex df altCol cols beta r = cellIndex altCol cols beta fun c => df.val c r := by
  unfold rowIndex cellIndex
  simp only [value_valueAt]

/-- The estimate on a table of copies maximises the sum of the parts of the observations copied. -/
theorem copies_nested_optimised {env : Env ℝ} {ty : String} {df : Frame ℝ} {a : ModelArgs ℝ} {m : ChoiceModel ℝ}
    (hm : createChoiceModel env ty df a = .ok m) (hcls : m.cls = .nested) {ns : List (String × List ℝ)}
    (hns : a.nestSpec = some (encodeNests ns)) (hk : (ns.map Prod.fst).Nodup) {s : List (String × SpecVal ℝ)}
    (hspec : m.args.specification = encodeAll s) {alts : List ℝ} (ids : List ℝ)
    (ha : AltsOf m.data m.args.altIdCol alts) {chosen : ℝ → Fin m.data.numRows}
    (hc : OneChoicePerObs m.data m.args.obsIdCol m.args.choiceCol chosen)
    {g : Fin m.data.numRows → Fin ns.length} (hg : ∀ r, m.data.val m.args.altIdCol r ∈ (ns.get (g r)).2)
    {k : ℕ} (hkk : k = (specColumns alts s).length)
    {df' : Frame ℝ} {obsCol' : String} {m' : ChoiceModel ℝ} (hm' : recreate env m obsCol' df' = .ok m')
    (hcls' : m'.cls = m.cls) (hargs : m'.args = { m.args with obsIdCol := obsCol' })
    (hdata : m'.data = addIntercept m.args.specification df') (hsub : ∀ c ∈ m.data.columns, c ∈ df'.columns)
    {ids' : List ℝ} {src : ℝ → ℝ} (hcop : CopiesOf m.data m.args.obsIdCol df' obsCol' ids' src)
    {opts : PointOptions} {init y : List ℝ} (h : pointNested opts m' init = .ok y) :
    ∃ x : Fin (ns.length + k) → ℝ, y = List.ofFn x ∧
      NestedOptimisedBy opts ns init ((tableOf m ids).nestedSampleLogLik (ids'.map src) opts.ridge g
          fun (β : Fin k → ℝ) r => rowIndex m.data m.args.altIdCol (specColumns alts s) (List.ofFn β) r)
        (opts.ridge.getD 0 = 0 ∧ ∀ o ∈ ids'.map src, ∀ q, ∃ r ∈ (tableOf m ids).rows o, g r = q) x := by
  have hown := (built_own hm).1
  have hdes := hown.design
  rw [hspec] at hdes
  obtain ⟨halt, hvars, -⟩ := (createDesignMatrix_ok_iff rfl).1 hdes
  have hvars' : ∀ v ∈ s.map Prod.fst, v ∈ m.data.columns := by
    intro v hv
    refine hvars v ?_
    simpa [encodeAll, Function.comp_def] using hv
  have hdf : m'.data = df' := by
    rw [hdata, addIntercept, if_neg]
    rintro ⟨h1, h2⟩
    refine h2 (hsub _ ?_)
    rw [hspec] at h1
    exact hvars _ h1
  subst hdf
  have hnsm : m.args.nestSpec = some (encodeNests ns) := (built_nestSpec hm hcls).trans hns
  have hsp' : m'.args.specification = encodeAll s := by rw [hargs]; exact hspec
  have eo : m'.args.obsIdCol = obsCol' := by rw [hargs]
  have ea : m'.args.altIdCol = m.args.altIdCol := by rw [hargs]
  have ech : m'.args.choiceCol = m.args.choiceCol := by rw [hargs]
  have hns' : m'.args.nestSpec = some (encodeNests ns) := by rw [hargs]; exact hnsm
  have hcls'' : m'.cls = .nested := hcls'.trans hcls
  unfold recreate at hm'
  simp only [bind, Except.bind] at hm'
  split at hm'
  · cases hm'
  obtain ⟨-, hrows, -⟩ := point_nested_run hns' h
  obtain ⟨chosen', hc'⟩ := copies_oneChoice hcop hown.choice hc hrows
  have ha' : AltsOf m'.data m'.args.altIdCol alts := by
    refine ⟨ha.ascending, fun b => ?_⟩
    rw [ha.mem, ← built_nest_alts hm hcls hns, ← built_nest_alts hm' hcls'' hnsm]
  obtain ⟨-, g', hg', hgi', -⟩ := built_nests hm' hcls'' hnsm hk
  obtain ⟨-, g0, hg0, hgi, -⟩ := built_nests hm hcls hns hk
  obtain rfl : g = g0 := funext fun r => ((hgi r (g r)).2 (hg r)).symm
  obtain ⟨x, rfl, hopt⟩ := nested_point_optimised hm' hcls'' hnsm hk hsp' ha' (ids := ids')
    (by rw [eo]; exact hcop.ids) (chosen := chosen') (by rw [eo, ech]; exact hc') hg' hkk h
  have : Nonempty (Fin ns.length) := ⟨g' ⟨0, hrows⟩⟩
  set G : (String → ℝ) → Fin ns.length := fun row =>
    Classical.epsilon fun n : Fin ns.length => row m.args.altIdCol ∈ (ns.get n).2 with hGdef
  have hgG : ∀ r, g r = G fun c => m.data.val c r := fun r =>
    (hgi r _).2 (Classical.epsilon_spec (p := fun n : Fin ns.length => m.data.val m.args.altIdCol r ∈ (ns.get n).2)
      ⟨g r, hg r⟩)
  have hgG' : ∀ r, g' r = G fun c => m'.data.val c r := fun r => by
    rw [ea] at hgi' hg'
    exact (hgi' r _).2 (Classical.epsilon_spec
      (p := fun n : Fin ns.length => m'.data.val m.args.altIdCol r ∈ (ns.get n).2) ⟨g' r, hg' r⟩)
  have hGc : ∀ row row' : String → ℝ, (∀ c ∈ m.data.columns, row' c = row c) → G row' = G row := by
    intro row row' hrow
    simp only [hGdef, hrow _ halt]
  have hLL : ∀ θ : Fin (ns.length + k) → ℝ,
      ((tableOf m' ids').nestedLogLik opts.ridge g' fun (β : Fin k → ℝ) r =>
        rowIndex m'.data m'.args.altIdCol (specColumns alts s) (List.ofFn β) r) θ =
      ((tableOf m ids).nestedSampleLogLik (ids'.map src) opts.ridge g fun (β : Fin k → ℝ) r =>
        rowIndex m.data m.args.altIdCol (specColumns alts s) (List.ofFn β) r) θ := by
    intro θ
    unfold LongData.nestedLogLik LongData.nestedSampleLogLik nestedPenalty
    congr 1
    refine (sum_of_groups m'.data obsCol' _ hcop.ids).symm.trans ?_
    rw [List.map_map]
    congr 1
    refine List.map_congr_left fun i hi => ?_
    obtain ⟨tag, ht, hr⟩ := hcop.rows i hi
    set φ : (String → ℝ) → ℝ := cellIndex m.args.altIdCol (specColumns alts s) (List.ofFn (indexPart θ)) with hφ
    have := nestedObs_copy (D := tableOf m ids) (D' := tableOf m' ids') ech hown.choice
      (lam := nestLambda θ) hGc (φ := φ) (fun row row' hrow => cellIndex_congr halt hvars' hrow) hgG hgG'
      (u := fun r => rowIndex m.data m.args.altIdCol (specColumns alts s) (List.ofFn (indexPart θ)) r)
      (u' := fun r => rowIndex m'.data m'.args.altIdCol (specColumns alts s) (List.ofFn (indexPart θ)) r)
      (fun r => rowIndex_cell ..) (fun r => by rw [ea]; exact rowIndex_cell ..) (i := i) (o := src i) ht (by
        show obsRows m'.data m'.args.obsIdCol i = _
        rw [eo]; exact hr)
    rw [Function.comp_apply]
    refine Eq.trans ?_ this
    unfold LongData.rows LongData.nestedProb
    rw [show (tableOf m' ids').obsCol = obsCol' from eo]
    rfl
  refine ⟨x, rfl, ?_⟩
  obtain ⟨o1, con, f, hh, rep, o2, o3, o4, o5, o6, o7⟩ := hopt
  rw [funext hLL] at o5 o7
  refine ⟨o1, con, f, hh, rep, o2, o3, o4, o5, o6, fun θ i hgood => o7 θ i (hgood.imp_right ?_)⟩
  rintro ⟨h0, hall⟩
  refine ⟨h0, fun o ho q => ?_⟩
  obtain ⟨r, hr, rfl⟩ := hall (src o) (List.mem_map_of_mem ho) q
  simp only [LongData.rows, Finset.mem_filter, Finset.mem_univ, true_and] at hr ⊢
  obtain ⟨r', h1, h2⟩ := copies_back hcop ho hr
  refine ⟨r', (congrArg (fun c => m'.data.val c r') eo).trans h1, ?_⟩
  exact (hgG' r').trans ((hGc _ _ h2).trans (hgG r).symm)

/-! ## The properties -/

private lemma nested_max {opts : PointOptions} {ns : List (String × List ℝ)} {k : ℕ} {x₀ : List ℝ}
    {LL : (Fin (ns.length + k) → ℝ) → ℝ} {P : Prop} {x : Fin (ns.length + k) → ℝ}
    (h : NestedOptimisedBy opts ns x₀ LL P x) (hs : MinimisingSolver opts.solver) (y : Fin (ns.length + k) → ℝ) :
    LL y ≤ LL x := by
  obtain ⟨-, con, f, hh, rep, -, h1, rfl, h3, -⟩ := h
  have := hs _ _ _ _ _ h1 y
  rw [h3, h3] at this
  linarith

/-- The log-likelihood of the sample that contains every observation once is the log-likelihood of the data. -/
theorem nestedSampleLogLik_all {D : LongData} (hids : AltsOf D.df D.obsCol D.ids) (ridge : Option ℝ) {N k : ℕ}
    (g : Fin D.df.numRows → Fin N) (V : (Fin k → ℝ) → Fin D.df.numRows → ℝ) (θ : Fin (N + k) → ℝ) :
    D.nestedSampleLogLik D.ids ridge g V θ = D.nestedLogLik ridge g V θ := by
  unfold LongData.nestedSampleLogLik LongData.nestedLogLik nestedPenalty
  congr 1
  exact sum_of_groups D.df D.obsCol _ hids

private lemma nestedSample_without {D : LongData} (hids : AltsOf D.df D.obsCol D.ids) (o : ℝ) (ridge : Option ℝ) {N k : ℕ}
    (g : Fin D.df.numRows → Fin N) (V : (Fin k → ℝ) → Fin D.df.numRows → ℝ) (θ : Fin (N + k) → ℝ) :
    D.nestedSampleLogLik (D.ids.filter fun i => i ≠ o) ridge g V θ = D.nestedLogLikWithout o ridge g V θ := by
  unfold LongData.nestedSampleLogLik LongData.nestedLogLikWithout
  congr 1
  have hn : D.ids.Nodup := hids.ascending.imp fun h => ne_of_lt h
  rw [← List.sum_toFinset _ (hn.filter _)]
  unfold LongData.rows
  rw [← Finset.sum_fiberwise_of_maps_to (t := (D.ids.filter fun i => i ≠ o).toFinset) (g := D.df.val D.obsCol)]
  · refine Finset.sum_congr rfl fun i hi => Finset.sum_congr ?_ fun _ _ => rfl
    rw [List.mem_toFinset, List.mem_filter] at hi
    have hi : i ≠ o := by simpa using hi.2
    ext r
    simp only [Finset.mem_filter, Finset.mem_univ, true_and]
    exact ⟨fun h => ⟨h ▸ hi, h⟩, fun h => h.2⟩
  · intro r hr
    rw [Finset.mem_filter] at hr
    rw [List.mem_toFinset, List.mem_filter]
    exact ⟨(hids.mem _).2 ⟨r, rfl⟩, by simpa using hr.2⟩

/-- **C114** (bootstrap). Build a nested logit model on a table in which every observation chose one row, and generate
bootstrap replicates, with any random number generator, any optimiser, and any extraction of starting values.  There
is one replicate per sample; every sample has as many observations as the data, with the same number of choices of each
alternative; and the replicate is where the optimiser stopped when asked to maximise the nested logit log-likelihood of
the original data with each observation counted as often as it was drawn, with the parameters of nests of one
alternative and those listed by the user held fixed.  So with an optimiser that minimises, it maximises that
log-likelihood.  The derivatives the optimiser was given are right for the coefficients of the index; for the parameters
of the nests only without a ridge penalty and if every observation drawn has a row in every nest, which is what is
missing. -/
theorem nested_bootstrap_maximises_partial {env : Env ℝ} {ty : String} {df : Frame ℝ} {a : ModelArgs ℝ}
    {m : ChoiceModel ℝ} (hm : createChoiceModel env ty df a = .ok m) (hcls : m.cls = .nested)
    {ns : List (String × List ℝ)} (hns : a.nestSpec = some (encodeNests ns)) (hk : (ns.map Prod.fst).Nodup)
    {s : List (String × SpecVal ℝ)} (hspec : m.args.specification = encodeAll s) {alts : List ℝ} (ids : List ℝ)
    (ha : AltsOf m.data m.args.altIdCol alts) {chosen : ℝ → Fin m.data.numRows}
    (hc : OneChoicePerObs m.data m.args.obsIdCol m.args.choiceCol chosen) (hboot : "bootstrap_id" ∉ m.data.columns)
    {g : Fin m.data.numRows → Fin ns.length} (hg : ∀ r, m.data.val m.args.altIdCol r ∈ (ns.get (g r)).2)
    {k : ℕ} (hkk : k = (specColumns alts s).length)
    {rng : Rng} (hrng : ChoosesMembers rng) {bfgs : Solver}
    {extract : ChoiceModel ℝ → List (PyVal ℝ) → List ℝ → ℕ → Except Err (List ℝ)}
    {mnl : MnlArgs ℝ PointOptions} {opts : PointOptions} {numSamples : ℕ} {seed : Option IntArg}
    {st st' : rng.State} {reps : List (List ℝ)}
    (h : bootstrapRun rng env bfgs extract m (ns.length + k) mnl opts numSamples seed st = .ok (reps, st')) :
    let V := fun (β : Fin k → ℝ) r => rowIndex m.data m.args.altIdCol (specColumns alts s) (List.ofFn β) r
    let D := tableOf m ids
    reps.length = numSamples ∧
    ∃ samples, samplesRng rng (m.data.val m.args.obsIdCol) (m.data.val m.args.altIdCol) (m.data.val m.args.choiceCol)
        numSamples seed st = .ok (samples, st') ∧ samples.length = numSamples ∧
      ∀ i (hi : i < samples.length) (hi' : i < reps.length),
        open Classical in
        (samples[i].length = (univ.image (m.data.val m.args.obsIdCol)).card ∧
        (∀ o ∈ samples[i], ∃ r, m.data.val m.args.obsIdCol r = o) ∧
        (∀ b, samples[i].countP (fun o =>
            Chose (m.data.val m.args.obsIdCol) (m.data.val m.args.altIdCol) (m.data.val m.args.choiceCol) o b) =
          ((univ.image (m.data.val m.args.obsIdCol)).filter fun o =>
            Chose (m.data.val m.args.obsIdCol) (m.data.val m.args.altIdCol) (m.data.val m.args.choiceCol) o b).card)) ∧
        ∃ (x₀ : List ℝ) (x : Fin (ns.length + k) → ℝ), reps[i] = List.ofFn x ∧
          (∃ labels est, extract m labels est (ns.length + k) = .ok x₀) ∧
          NestedOptimisedBy opts ns x₀ (D.nestedSampleLogLik samples[i] opts.ridge g V)
            (opts.ridge.getD 0 = 0 ∧ ∀ o ∈ samples[i], ∀ q, ∃ r ∈ D.rows o, g r = q) x ∧
          (MinimisingSolver opts.solver → ∀ y, D.nestedSampleLogLik samples[i] opts.ridge g V y ≤
            D.nestedSampleLogLik samples[i] opts.ridge g V x) := by
  classical
  intro V D
  have hown := (built_own hm).1
  have hnm : m.cls ≠ .mnl := by rw [hcls]; decide
  unfold bootstrapRun at h
  simp only [bind, Except.bind] at h
  split at h
  · cases h
  rename_i smp hsmp
  split at h
  · cases h
  rename_i reps' hreps
  cases h
  obtain ⟨b1, b2⟩ := bootstrap_samples_rng rng hrng _ _ _ (each_chose_one hc) numSamples seed st hsmp
  have hrow : 0 < m.data.numRows := lt_of_le_of_lt (Nat.zero_le _) (chosen 0).2
  have hne : ∀ sm ∈ smp.1, sm ≠ [] ∧ ∀ o ∈ sm, ∃ r, m.data.val m.args.obsIdCol r = o := by
    intro sm hsm
    refine ⟨?_, (b2 sm hsm).2.1⟩
    rintro rfl
    have h0 := (b2 _ hsm).1
    rw [List.length_nil, eq_comm, Finset.card_eq_zero, Finset.image_eq_empty] at h0
    exact absurd (Finset.mem_univ (⟨0, hrow⟩ : Fin m.data.numRows)) (by rw [h0]; simp)
  obtain ⟨c1, c2⟩ := bootstrap_runs hm hne hown.obs hboot hreps
  refine ⟨c1.trans b1, smp.1, hsmp, b1, fun i hi hi' => ?_⟩
  have hbi := b2 _ (List.getElem_mem hi)
  refine ⟨by convert hbi, ?_⟩
  obtain ⟨df', m', init, y, d1, d2, d3, d4, d5, d6, d7, d8, d8', d9, d10⟩ := c2 i hi hi'
  obtain ⟨ids', src, hcop, hsrc⟩ := bootstrap_copies hboot hbi.2.1 d2 d3
  rw [replicateOptions, if_neg hnm] at d9
  obtain ⟨x, rfl, hopt⟩ := copies_nested_optimised hm hcls hns hk hspec ids ha hc hg hkk d4 d5 d6 d7
    (fun c hc => by rw [d1]; exact List.mem_append_left _ hc) hcop
    ((if_pos (d5.trans hcls)).symm.trans d9)
  rw [hsrc] at hopt
  exact ⟨init, x, assignRow_exact d10 (by simp), d8' hnm, hopt, fun hmin => nested_max hopt hmin⟩

/-- **C114** (jackknife). There is one jackknife replicate per observation, in ascending order of the ids, and it is where
the optimiser stopped when asked to maximise the nested logit log-likelihood of the data without that observation.  What
is missing of the derivatives is as for the bootstrap. -/
theorem nested_jackknife_maximises_partial {env : Env ℝ} {ty : String} {df : Frame ℝ} {a : ModelArgs ℝ}
    {m : ChoiceModel ℝ} (hm : createChoiceModel env ty df a = .ok m) (hcls : m.cls = .nested)
    {ns : List (String × List ℝ)} (hns : a.nestSpec = some (encodeNests ns)) (hk : (ns.map Prod.fst).Nodup)
    {s : List (String × SpecVal ℝ)} (hspec : m.args.specification = encodeAll s) {alts ids : List ℝ}
    (ha : AltsOf m.data m.args.altIdCol alts) (hids : AltsOf m.data m.args.obsIdCol ids)
    {chosen : ℝ → Fin m.data.numRows} (hc : OneChoicePerObs m.data m.args.obsIdCol m.args.choiceCol chosen)
    {g : Fin m.data.numRows → Fin ns.length} (hg : ∀ r, m.data.val m.args.altIdCol r ∈ (ns.get (g r)).2)
    {k : ℕ} (hkk : k = (specColumns alts s).length) {bfgs : Solver}
    {extract : ChoiceModel ℝ → List (PyVal ℝ) → List ℝ → ℕ → Except Err (List ℝ)}
    {mnl : MnlArgs ℝ PointOptions} {opts : PointOptions} {reps : List (List ℝ)}
    (h : generateJackknifeReplicates env (pointFitter bfgs) extract m (ns.length + k) mnl opts = .ok reps) :
    let V := fun (β : Fin k → ℝ) r => rowIndex m.data m.args.altIdCol (specColumns alts s) (List.ofFn β) r
    let D := tableOf m ids
    reps.length = ids.length ∧
    ∀ i (hi : i < ids.length) (hi' : i < reps.length),
      ∃ (x₀ : List ℝ) (x : Fin (ns.length + k) → ℝ), reps[i] = List.ofFn x ∧
        (∃ labels est, extract m labels est (ns.length + k) = .ok x₀) ∧
        NestedOptimisedBy opts ns x₀ (D.nestedLogLikWithout ids[i] opts.ridge g V)
          (opts.ridge.getD 0 = 0 ∧ ∀ o ∈ ids, o ≠ ids[i] → ∀ q, ∃ r ∈ D.rows o, g r = q) x ∧
        (MinimisingSolver opts.solver → ∀ y, D.nestedLogLikWithout ids[i] opts.ridge g V y ≤
          D.nestedLogLikWithout ids[i] opts.ridge g V x) := by
  intro V D
  have hnm : m.cls ≠ .mnl := by rw [hcls]; decide
  obtain ⟨ids0, e1, e2, e3, e4⟩ := jackknife_runs hm h
  obtain rfl : ids0 = ids := (altsOf_eq ⟨e1, e2⟩).symm.trans (altsOf_eq hids)
  refine ⟨e3, fun i hi hi' => ?_⟩
  obtain ⟨df', m', init, y, d1, d2, d3, d4, d5, d6, d7, d7', d8, d9⟩ := e4 i hi hi'
  have hcop := jackknife_copies hids d2
  rw [replicateOptions, if_neg hnm] at d8
  obtain ⟨x, rfl, hopt⟩ := copies_nested_optimised hm hcls hns hk hspec ids0 ha hc hg hkk d3 d4 d5 d6
    (fun c hc => by rw [d1]; exact hc) hcop ((if_pos (d4.trans hcls)).symm.trans d8)
  rw [List.map_id] at hopt
  have e : D.nestedSampleLogLik (ids0.filter fun i' => i' ≠ ids0[i]) opts.ridge g V =
      D.nestedLogLikWithout ids0[i] opts.ridge g V :=
    funext fun θ => nestedSample_without (D := D) hids ids0[i] _ g V θ
  have hopt' : NestedOptimisedBy opts ns init (D.nestedLogLikWithout ids0[i] opts.ridge g V)
      (opts.ridge.getD 0 = 0 ∧ ∀ o ∈ ids0, o ≠ ids0[i] → ∀ q, ∃ r ∈ D.rows o, g r = q) x := by
    rw [← e]
    have : (opts.ridge.getD 0 = 0 ∧ ∀ o ∈ ids0, o ≠ ids0[i] → ∀ q, ∃ r ∈ D.rows o, g r = q) =
        (opts.ridge.getD 0 = 0 ∧ ∀ o ∈ ids0.filter fun i' => i' ≠ ids0[i], ∀ q, ∃ r ∈ D.rows o, g r = q) := by
      simp only [List.mem_filter, and_imp, decide_eq_true_eq]
    rw [this]
    exact hopt
  exact ⟨init, x, assignRow_exact d9 (by simp), d7' hnm, hopt', fun hmin => nested_max hopt' hmin⟩

end

end Pylogit
