import Verif.Props.Reorder
import Verif.Props.SeparationFits
import Verif.Spec.SpecOrder

/-!
# C130: the order in which variables and nests are listed does not matter
-/

open Finset Matrix Function

namespace Pylogit

open Spec

noncomputable section

/-! ## Lists in another order -/

/-- A permuted list is the list, listed in another order. -/
theorem relists_of_perm {α : Type} {l' l : List α} (h : l'.Perm l) : ∃ σ, Relists l' l σ := by
  induction h with
  | nil => exact ⟨Equiv.refl _, fun j => rfl⟩
  | @cons x l₁ l₂ _ ih =>
    obtain ⟨σ, hσ⟩ := ih
    refine ⟨(finSuccEquiv _).trans ((Equiv.optionCongr σ).trans (finSuccEquiv _).symm), fun j => ?_⟩
    refine Fin.cases ?_ (fun j => ?_) j
    · rfl
    · have := hσ j
      simpa [finSuccEquiv_succ] using this
  | swap x y l =>
    let τ : Fin (l.length + 2) ≃ Fin (l.length + 2) := Equiv.swap 0 1
    refine ⟨τ, fun j => ?_⟩
    change Fin (l.length + 2) at j
    refine Fin.cases ?_ (fun j => Fin.cases ?_ (fun j => ?_) j) j
    · have : τ 0 = 1 := Equiv.swap_apply_left _ _
      rw [this]; rfl
    · have : τ 1 = 0 := Equiv.swap_apply_right _ _
      have h : (Fin.succ 0 : Fin (l.length + 2)) = 1 := rfl
      rw [h, this]; rfl
    · have : τ j.succ.succ = j.succ.succ := Equiv.swap_apply_of_ne_of_ne (Fin.succ_ne_zero _) (by
        rw [← Fin.succ_zero_eq_one]
        exact fun e => Fin.succ_ne_zero _ (Fin.succ_injective _ e))
      rw [this]; rfl
  | trans _ _ ih1 ih2 =>
    obtain ⟨σ, hσ⟩ := ih1
    obtain ⟨τ, hτ⟩ := ih2
    exact ⟨σ.trans τ, fun j => (hσ j).trans (hτ (σ j))⟩

theorem specColumns_perm (alts : List ℝ) {s' s : List (String × SpecVal ℝ)} (h : s'.Perm s) :
    (specColumns alts s').Perm (specColumns alts s) := h.flatMap_right _

theorem rowIndex_relisted {df : Frame ℝ} {altCol : String} {cols' cols : List (ColDesc ℝ)}
    {σ : Fin cols'.length ≃ Fin cols.length} (hσ : Relists cols' cols σ) (β : Fin cols.length → ℝ)
    (r : Fin df.numRows) :
    rowIndex df altCol cols' (List.ofFn (β ∘ σ)) r = rowIndex df altCol cols (List.ofFn β) r := by
  have e1 := congrFun (described_dot (df := df) (altCol := altCol) (cols := cols') rfl (β ∘ σ)) r
  have e2 := congrFun (described_dot (df := df) (altCol := altCol) (cols := cols) rfl β) r
  rw [← e1, ← e2]
  simp only [mulVec, dotProduct, describedMatrix, Matrix.of_apply]
  rw [← σ.sum_comp]
  refine Finset.sum_congr rfl fun j _ => ?_
  have := hσ j
  simp only [List.get_eq_getElem] at this
  simp [this]

/-! ## Models built from differently ordered arguments -/

theorem addIntercept_perm {s' s : List (String × SpecVal ℝ)} (h : s'.Perm s) (df : Frame ℝ) :
    addIntercept (encodeAll s') df = addIntercept (encodeAll s) df := by
  have : "intercept" ∈ (encodeAll s').map Prod.fst ↔ "intercept" ∈ (encodeAll s).map Prod.fst := by
    simp only [encodeAll, List.map_map]
    exact (h.map _).mem_iff
  unfold addIntercept
  simp only [this]

/-- What two models have in common that were built on the same table, with the variables listed in another order. -/
structure Relisted (m m' : ChoiceModel ℝ) : Prop where
  cls : m'.cls = m.cls
  data : m'.data = m.data
  alt : m'.args.altIdCol = m.args.altIdCol
  obs : m'.args.obsIdCol = m.args.obsIdCol
  choice : m'.args.choiceCol = m.args.choiceCol
  icptRef : m'.args.interceptRefPos = m.args.interceptRefPos
  shapeRef : m'.args.shapeRefPos = m.args.shapeRefPos
  mixId : m'.args.mixingIdCol = m.args.mixingIdCol
  mixVars : m'.args.mixingVars = m.args.mixingVars

theorem relisted {env : Env ℝ} {ty : String} {df : Frame ℝ} {a a' : ModelArgs ℝ} {m m' : ChoiceModel ℝ}
    {s s' : List (String × SpecVal ℝ)} (hs : s'.Perm s) (ha : a.specification = encodeAll s)
    (ha' : a'.specification = encodeAll s')
    (hsame : a' = { a with specification := a'.specification, names := a'.names, nestSpec := a'.nestSpec })
    (hm : createChoiceModel env ty df a = .ok m) (hm' : createChoiceModel env ty df a' = .ok m') : Relisted m m' := by
  have hd := (built_own hm).2.1
  have hd' := (built_own hm').2.1
  unfold createChoiceModel at hm hm'
  split at hm
  · cases hm
  rename_i cls hlk
  rw [hlk] at hm'
  dsimp only at hm'
  rw [classInit_iff] at hm hm'
  obtain ⟨-, hm⟩ := hm
  obtain ⟨-, hm'⟩ := hm'
  obtain ⟨h1, h2⟩ := baseInit_ok.1 hm
  obtain ⟨h1', h2'⟩ := baseInit_ok.1 hm'
  obtain ⟨-, -, d, -, -, rfl⟩ := initBuild_iff.1 h2
  obtain ⟨-, -, d', -, -, rfl⟩ := initBuild_iff.1 h2'
  dsimp only at hd hd'
  have e1 : (argsFor cls a).specification = a.specification := (argsFor_same cls a).2.2.2.1
  have e2 : (argsFor cls a').specification = a'.specification := (argsFor_same cls a').2.2.2.1
  refine ⟨rfl, ?_, ?_, ?_, ?_, ?_, ?_, ?_, ?_⟩
  · dsimp only
    rw [e1, e2, ha, ha']
    exact addIntercept_perm hs df
  all_goals
    dsimp only
    rw [hsame]
    cases cls <;> rfl

/-! ## C130: columns and names -/

private lemma zip_names {s : List (String × SpecVal ℝ)} {ns : List (String × PyVal ℝ)}
    (hk : ns.map Prod.fst = s.map Prod.fst) {look : String → PyVal ℝ}
    (hl : ∀ kv ∈ ns, look kv.1 = kv.2) : s.zip ns = s.map fun kv => (kv, kv.1, look kv.1) := by
  apply List.ext_getElem
  · have := congrArg List.length hk
    simp at this
    simp [this]
  · intro i h1 h2
    simp only [List.getElem_zip, List.getElem_map, Prod.mk.injEq, true_and]
    have hi : i < s.length := by simpa using h2
    have hi' : i < ns.length := by
      have := congrArg List.length hk
      simp at this
      omega
    have h3 : ns[i].1 = s[i].1 := by
      have := congrArg (fun l => l[i]?) hk
      simpa [hi, hi'] using this
    rw [← h3, hl _ (List.getElem_mem hi')]

/-- The columns of a model with their names: variable by variable. -/
private lemma named_columns {env : Env ℝ} {ty : String} {df : Frame ℝ} {a : ModelArgs ℝ} {m : ChoiceModel ℝ}
    (hm : createChoiceModel env ty df a = .ok m) {s : List (String × SpecVal ℝ)}
    (hspec : m.args.specification = encodeAll s) (hkeys : (s.map Prod.fst).Nodup) {alts : List ℝ}
    (ha : AltsOf m.data m.args.altIdCol alts) {ns : List (String × PyVal ℝ)} (hns : m.args.names = some ns)
    (hk : ns.map Prod.fst = s.map Prod.fst) :
    (specColumns alts s).zip m.indVarNames = (s.zip ns).flatMap fun p =>
      (p.1.2.columns alts p.1.1).zip (match p.2.2 with
          | .str x => [.str x]
          | .list l => l
          | _ => []) := by
  have hd := (built_own hm).1.design
  rw [hspec, hns] at hd
  obtain ⟨-, -, -, hn, cs, -, -, -, h3⟩ := (createDesignMatrix_ok_iff (altsOf_eq ha)).1 hd
  rcases h3 with ⟨h3, -⟩ | ⟨ns', h3, h4⟩
  · cases h3
  obtain rfl := Option.some.inj h3
  obtain ⟨-, hv⟩ := checkNameDict_ok.1 (hn ns rfl)
  have hv' : ∀ p ∈ s.zip ns, checkNameValue alts.length p.1.2.encode p.2.2 = .ok () := by
    intro p hp
    obtain ⟨i, hi⟩ := List.mem_iff_getElem?.1 hp
    obtain ⟨hp1, hp2⟩ := List.getElem?_zip_eq_some.1 hi
    have hk' : p.2.1 = p.1.1 := by
      have := congrArg (fun l => l[i]?) hk
      simpa [hp1, hp2] using this
    obtain ⟨v, hv1, hv2⟩ := hv p.2 (List.mem_of_getElem? hp2)
    obtain ⟨sv, hsv, rfl⟩ := lookup_encodeAll hv1
    rw [hk', lookup_of_mem_nodup hkeys (List.mem_of_getElem? hp1)] at hsv
    rwa [Option.some.inj hsv]
  clear hv hd hn h3 hspec hkeys hns
  generalize m.indVarNames = nms at h4
  unfold specColumns
  induction s generalizing ns nms with
  | nil =>
    obtain rfl : ns = [] := by simpa using hk
    simp [flattenNames] at h4
    simp
  | cons kv s ih =>
    cases ns with
    | nil => simp at hk
    | cons nv ns =>
      simp only [List.map_cons, List.cons.injEq] at hk
      simp only [List.zip_cons_cons, List.forall_mem_cons] at hv'
      obtain ⟨l, hl1, hl2⟩ := flattenName_length (var := kv.1) rfl hv'.1
      rw [flattenNames, hl1] at h4
      simp only [bind, Except.bind] at h4
      cases h5 : flattenNames ns with
      | error e => rw [h5] at h4; cases h4
      | ok m =>
        rw [h5] at h4
        obtain rfl := Except.ok.inj h4
        simp only [List.flatMap_cons, List.zip_cons_cons]
        rw [List.zip_append hl2.symm, ih hk.2 hv'.2 _ h5]
        congr 2
        obtain ⟨k, v⟩ := nv
        cases v <;> simp [flattenName] at hl1 <;> simp [hl1]

/-- The names of a model, one for each column. -/
private lemma names_length {env : Env ℝ} {ty : String} {df : Frame ℝ} {a : ModelArgs ℝ} {m : ChoiceModel ℝ}
    (hm : createChoiceModel env ty df a = .ok m) {s : List (String × SpecVal ℝ)}
    (hspec : m.args.specification = encodeAll s) (hkeys : (s.map Prod.fst).Nodup) {alts : List ℝ}
    (ha : AltsOf m.data m.args.altIdCol alts)
    (hn : ∀ ns, m.args.names = some ns → (ns.map Prod.fst).Nodup) :
    m.indVarNames.length = (specColumns alts s).length := by
  have hd := (built_own hm).1.design
  rw [hspec] at hd
  rw [one_name_per_column (by simpa [encodeAll, Function.comp_def] using hkeys) hn hd,
    show m.design = _ from design_entries ha hd, List.length_map, specColumns]

/-- **C130** (columns). Models built on a table with the variables of the index listed in two orders, and named in the
same way (or not at all), have the same columns with the same names, in another order. -/
theorem listing_order_columns {env : Env ℝ} {ty : String} {df : Frame ℝ} {a a' : ModelArgs ℝ}
    {m m' : ChoiceModel ℝ} {s s' : List (String × SpecVal ℝ)} (hs : s'.Perm s) (hkeys : (s.map Prod.fst).Nodup)
    (hspec : a.specification = encodeAll s) (hspec' : a'.specification = encodeAll s')
    (hsame : a' = { a with specification := a'.specification, names := a'.names, nestSpec := a'.nestSpec })
    (hnames : SameNames a a')
    (hm : createChoiceModel env ty df a = .ok m) (hm' : createChoiceModel env ty df a' = .ok m')
    {alts : List ℝ} (ha : AltsOf m.data m.args.altIdCol alts) :
    ∃ σ, Relists (specColumns alts s') (specColumns alts s) σ ∧
      m.indVarNames.length = (specColumns alts s).length ∧ m'.indVarNames.length = (specColumns alts s').length ∧
      ∀ j : Fin (specColumns alts s').length, m'.indVarNames[(j : ℕ)]? = m.indVarNames[(σ j : ℕ)]? := by
  have R := relisted hs hspec hspec' hsame hm hm'
  obtain ⟨⟨-, -, -, q1, q3⟩, -⟩ := built_cols hm
  obtain ⟨⟨-, -, -, q2, q4⟩, -⟩ := built_cols hm'
  rw [hspec] at q1
  rw [hspec'] at q2
  have ha' : AltsOf m'.data m'.args.altIdCol alts := by rw [R.data, R.alt]; exact ha
  have hkeys' : (s'.map Prod.fst).Nodup := (hs.map Prod.fst).nodup_iff.2 hkeys
  have k1 : (encodeAll s).map Prod.fst = s.map Prod.fst := by simp [encodeAll, Function.comp_def]
  have k2 : (encodeAll s').map Prod.fst = s'.map Prod.fst := by simp [encodeAll, Function.comp_def]
  have hperm : ((specColumns alts s').zip m'.indVarNames).Perm ((specColumns alts s).zip m.indVarNames) := by
    rcases hnames with ⟨h1, h2⟩ | ⟨ns, ns', h1, h2, h3, h4, h5⟩
    · have hd := (built_own hm).1.design
      have hd' := (built_own hm').1.design
      rw [q1, q3, h1] at hd
      rw [q2, q4, h2] at hd'
      obtain ⟨-, rfl, -, e1⟩ := default_names ha hd
      obtain ⟨-, rfl, -, e2⟩ := default_names ha' hd'
      rw [e1, e2]
      have := (specColumns_perm alts hs).map fun d => (d, (PyVal.str (d.name env.fmt env.fmtList) : PyVal ℝ))
      have hz : ∀ l : List (ColDesc ℝ), l.zip (l.map fun d => (PyVal.str (d.name env.fmt env.fmtList) : PyVal ℝ)) =
          l.map fun d => (d, PyVal.str (d.name env.fmt env.fmtList)) := by
        intro l
        induction l with
        | nil => rfl
        | cons x l ih => simp [ih]
      unfold specColumns at this ⊢
      rw [hz, hz]
      exact this
    · rw [hspec, k1] at h4
      rw [hspec', k2] at h5
      have n1 : (ns.map Prod.fst).Nodup := h4 ▸ hkeys
      rw [named_columns hm q1 hkeys ha (q3.trans h1) h4, named_columns hm' q2 hkeys' ha' (q4.trans h2) h5]
      have hl : ∀ kv ∈ ns, (ns.lookup kv.1).getD (.str "") = kv.2 := fun kv h => by
        rw [lookup_of_mem_nodup n1 h]; rfl
      rw [zip_names (look := fun k => (ns.lookup k).getD (.str "")) h4 hl,
        zip_names (look := fun k => (ns.lookup k).getD (.str "")) h5 fun kv h => hl kv (h3.mem_iff.1 h)]
      exact (hs.map _).flatMap_right _
  have hl : m.indVarNames.length = (specColumns alts s).length := names_length hm q1 hkeys ha fun ns e => by
    rcases hnames with ⟨h1, -⟩ | ⟨ns₁, -, h1, -, -, h4, -⟩
    · rw [q3, h1] at e; cases e
    · rw [q3, h1] at e
      rw [← Option.some.inj e, h4, hspec, k1]
      exact hkeys
  have hl' : m'.indVarNames.length = (specColumns alts s').length := names_length hm' q2 hkeys' ha' fun ns e => by
    rcases hnames with ⟨-, h1⟩ | ⟨-, ns₁, -, h1, -, -, h4⟩
    · rw [q4, h1] at e; cases e
    · rw [q4, h1] at e
      rw [← Option.some.inj e, h4, hspec', k2]
      exact hkeys'
  obtain ⟨σ, hσ⟩ := relists_of_perm hperm
  have z : ((specColumns alts s).zip m.indVarNames).length = (specColumns alts s).length := by simp [hl]
  have z' : ((specColumns alts s').zip m'.indVarNames).length = (specColumns alts s').length := by simp [hl']
  refine ⟨(finCongr z').symm.trans (σ.trans (finCongr z)), fun j => ?_, hl, hl', fun j => ?_⟩
  · have := congrArg Prod.fst (hσ (finCongr z'.symm j))
    simpa using this
  · have := congrArg Prod.snd (hσ (finCongr z'.symm j))
    have hj : (j : ℕ) < m'.indVarNames.length := hl'.symm ▸ j.isLt
    have hj2 := (σ (finCongr z'.symm j)).isLt
    have hj3 : (σ (finCongr z'.symm j) : ℕ) < m.indVarNames.length := by rw [hl, ← z]; exact hj2
    rw [List.getElem?_eq_getElem hj]
    simp only [List.get_eq_getElem, List.getElem_zip] at this
    simp only [Equiv.trans_apply, finCongr_symm, finCongr_apply, Fin.val_cast] at this ⊢
    rw [this]
    exact (List.getElem?_eq_getElem hj3).symm

/-! ## C130: logit-type models -/

/-- **C130** (logit-type models). The variables of a model can be listed in any order: models built on a table with the
variables of the index in the orders `s` and `s'` are fitted by maximising the same function, if each coefficient stays
with its column; `σ` says which columns correspond, and `listing_order_columns` that there is such a `σ`. -/
theorem fit_ignores_listing_order {env : Env ℝ} {ty : String} {df : Frame ℝ} {a a' : ModelArgs ℝ}
    {m m' : ChoiceModel ℝ} {s s' : List (String × SpecVal ℝ)} (hs : s'.Perm s)
    (hspec : a.specification = encodeAll s) (hspec' : a'.specification = encodeAll s')
    (hsame : a' = { a with specification := a'.specification, names := a'.names, nestSpec := a'.nestSpec })
    (hm : createChoiceModel env ty df a = .ok m) (hm' : createChoiceModel env ty df a' = .ok m')
    (hcls : m.cls ≠ .nested ∧ m.cls ≠ .mixed) {alts : List ℝ} (ha : AltsOf m.data m.args.altIdCol alts)
    (hasym : m.cls = .asym → 2 ≤ alts.length)
    {σ : Fin (specColumns alts s').length ≃ Fin (specColumns alts s).length}
    (hσ : Relists (specColumns alts s') (specColumns alts s) σ)
    {p : ParamArrays} {q : AltParams} (hp : HoldsFor m.cls alts m.args.interceptRefPos m.args.shapeRefPos p q)
    {β : Fin (specColumns alts s).length → ℝ} (hβ : p.index = List.ofFn β) :
    (fitInputs m' m'.data).logLik id m'.cls m'.args.interceptRefPos m'.args.shapeRefPos
        { p with index := List.ofFn (β ∘ σ) } =
      (fitInputs m m.data).logLik id m.cls m.args.interceptRefPos m.args.shapeRefPos p := by
  have R := relisted hs hspec hspec' hsame hm hm'
  have q1 : m.args.specification = encodeAll s := (built_cols hm).1.2.2.2.1.trans hspec
  have q2 : m'.args.specification = encodeAll s' := (built_cols hm').1.2.2.2.1.trans hspec'
  rw [fit_maximises_table_logLik hm hcls q1 ha hasym hp (by rw [hβ, List.length_ofFn]),
    fit_maximises_table_logLik hm' (by rw [R.cls]; exact hcls) q2 (by rw [R.data, R.alt]; exact ha)
      (by rw [R.cls]; exact hasym) (q := q)
      (by rw [R.cls, R.icptRef, R.shapeRef]; exact ⟨hp.1, hp.2, hp.3, hp.4⟩)
      (by dsimp only; rw [List.length_ofFn])]
  obtain ⟨c, nm, dt, ds, ns, ar, ms⟩ := m'
  obtain ⟨r1, r2, r3, r4, r5, -, -, -, -⟩ := R
  dsimp only at r1 r2 r3 r4 r5 ⊢
  subst r1 r2
  rw [r3, r4, r5, hβ]
  simp only [rowIndex_relisted hσ]

/-! ## C130: nested logit -/

theorem nestedProb_relisted {R O N N' : Type} [Fintype R] [Fintype N] [Fintype N'] [DecidableEq O]
    [DecidableEq N] [DecidableEq N'] (π : N' ≃ N) {f : R → O} {g : R → N} {g' : R → N'} (hg : ∀ r, π (g' r) = g r)
    (V : R → ℝ) (lam : N → ℝ) (r : R) :
    nestedProb f g' V (fun n => lam (π n)) r = nestedProb f g V lam r := by
  have hrows : ∀ o n, nestRows f g' o n = nestRows f g o (π n) := by
    intro o n
    ext s
    simp only [nestRows, Finset.mem_filter, Finset.mem_univ, true_and, ← hg, π.apply_eq_iff_eq]
  have hsum : ∀ o n, nestSum f g' V (fun n => lam (π n)) o n = nestSum f g V lam o (π n) := by
    intro o n
    unfold nestSum
    rw [hrows]
  have hav : ∀ o (F : N → ℝ), ∑ n ∈ availNests f g' o, F (π n) = ∑ n ∈ availNests f g o, F n := by
    intro o F
    refine Finset.sum_equiv π (fun n => ?_) fun _ _ => rfl
    simp only [availNests, Finset.mem_filter, Finset.mem_univ, true_and, hrows]
  simp only [nestedProb, nestProb, condProb, hsum, hg]
  rw [hav (f r) fun n => nestSum f g V lam (f r) n ^ lam n]

/-- **C130** (nested logit). The variables of the index, the nests, and the alternatives of each nest can be listed in any
order: models built on a table with the variables in the orders `s` and `s'` and the nests in the orders `ns` and `ns'`
are fitted by maximising the same function, if each parameter stays with its nest or column. -/
theorem nested_fit_ignores_listing_order {env : Env ℝ} {ty : String} {df : Frame ℝ} {a a' : ModelArgs ℝ}
    {m m' : ChoiceModel ℝ} {s s' : List (String × SpecVal ℝ)} (hs : s'.Perm s)
    (hspec : a.specification = encodeAll s) (hspec' : a'.specification = encodeAll s')
    (hsame : a' = { a with specification := a'.specification, names := a'.names, nestSpec := a'.nestSpec })
    {ns ns' : List (String × List ℝ)} (hns : a.nestSpec = some (encodeNests ns))
    (hns' : a'.nestSpec = some (encodeNests ns')) (hk : (ns.map Prod.fst).Nodup) (hk' : (ns'.map Prod.fst).Nodup)
    {π : Fin ns'.length ≃ Fin ns.length} (hπ : RelistsNests ns' ns π)
    (hm : createChoiceModel env ty df a = .ok m) (hm' : createChoiceModel env ty df a' = .ok m')
    (hcls : m.cls = .nested) {alts : List ℝ} (ha : AltsOf m.data m.args.altIdCol alts)
    {σ : Fin (specColumns alts s').length ≃ Fin (specColumns alts s).length}
    (hσ : Relists (specColumns alts s') (specColumns alts s) σ)
    (τ : Fin ns.length → ℝ) (β : Fin (specColumns alts s).length → ℝ) :
    fitNestedLogLik m' ns' (List.ofFn (τ ∘ π) ++ List.ofFn (β ∘ σ)) =
      fitNestedLogLik m ns (List.ofFn τ ++ List.ofFn β) := by
  have R := relisted hs hspec hspec' hsame hm hm'
  have q1 : m.args.specification = encodeAll s := (built_cols hm).1.2.2.2.1.trans hspec
  have q2 : m'.args.specification = encodeAll s' := (built_cols hm').1.2.2.2.1.trans hspec'
  have hcls' : m'.cls = .nested := R.cls.trans hcls
  obtain ⟨-, g, hg, hgi, -⟩ := built_nests hm hcls hns hk
  obtain ⟨-, g', hg', hgi', -⟩ := built_nests hm' hcls' hns' hk'
  rw [nested_fit_maximises_table_logLik hm hcls hns hk q1 ha (by simp) hg,
    nested_fit_maximises_table_logLik hm' hcls' hns' hk' q2 (by rw [R.data, R.alt]; exact ha) (by simp) hg']
  have d1 : (List.ofFn τ ++ List.ofFn β).drop ns.length = List.ofFn β := List.drop_left' (by simp)
  have d2 : (List.ofFn (τ ∘ π) ++ List.ofFn (β ∘ σ)).drop ns'.length = List.ofFn (β ∘ σ) := List.drop_left' (by simp)
  have t1 : ∀ n : Fin ns.length, (List.ofFn τ ++ List.ofFn β).getD n 0 = τ n := fun n => by
    rw [List.getD_eq_getElem?_getD, List.getElem?_append_left (by simp)]
    simp
  have t2 : ∀ n : Fin ns'.length, (List.ofFn (τ ∘ π) ++ List.ofFn (β ∘ σ)).getD n 0 = τ (π n) := fun n => by
    rw [List.getD_eq_getElem?_getD, List.getElem?_append_left (by simp)]
    simp
  simp only [d1, d2, t1, t2]
  obtain ⟨c, nm, dt, ds, nn, ar, ms⟩ := m'
  obtain ⟨r1, r2, r3, r4, r5, -, -, -, -⟩ := R
  dsimp only at r1 r2 r3 r4 r5 hg' ⊢
  subst r1 r2
  rw [r3] at hg' ⊢
  rw [r4, r5]
  have hgg : ∀ r, π (g' r) = g r := fun r => ((hgi r (π (g' r))).2 ((hπ (g' r)).2.mem_iff.1 (hg' r))).symm
  have hrow : ∀ r, rowIndex m.data m.args.altIdCol (specColumns alts s') (List.ofFn (β ∘ σ)) r =
      rowIndex m.data m.args.altIdCol (specColumns alts s) (List.ofFn β) r := fun r => rowIndex_relisted hσ β r
  have hV : rowIndex m.data m.args.altIdCol (specColumns alts s') (List.ofFn (β ∘ σ)) =
      rowIndex m.data m.args.altIdCol (specColumns alts s) (List.ofFn β) := funext hrow
  rw [hV]
  have := fun r => nestedProb_relisted π (f := m.data.val m.args.obsIdCol) hgg
    (rowIndex m.data m.args.altIdCol (specColumns alts s) (List.ofFn β)) (fun n => 1 / (1 + Real.exp (-τ n))) r
  simp only [this]

/-! ## C130: mixed logit -/

/-- **C130** (mixed logit). With the same seed, or the same state of the generator, the variables of the index can be
listed in any order if their names are distinct: the fits maximise the same function, if each mean stays with its
column. -/
theorem mixed_fit_ignores_listing_order (g : Rng) {env : Env ℝ} {df : Frame ℝ} {a a' : ModelArgs ℝ}
    {m m' : ChoiceModel ℝ} {s s' : List (String × SpecVal ℝ)} (hs : s'.Perm s) (hkeys : (s.map Prod.fst).Nodup)
    (hspec : a.specification = encodeAll s) (hspec' : a'.specification = encodeAll s')
    (hsame : a' = { a with specification := a'.specification, names := a'.names, nestSpec := a'.nestSpec })
    (hnames : SameNames a a') (hm : createChoiceModel env "Mixed Logit" df a = .ok m)
    (hm' : createChoiceModel env "Mixed Logit" df a' = .ok m') (hdist : m.indVarNames.Nodup)
    {mixCol : String} (hmix : a.mixingIdCol = some mixCol) (hcol : mixCol ∈ m.data.columns)
    {vars : List String} (hvars : a.mixingVars = some vars) (hne : vars ≠ [])
    {alts : List ℝ} (ha : AltsOf m.data m.args.altIdCol alts) (hrows : 0 < m.data.numRows)
    (hy : ∀ r, m.data.val m.args.choiceCol r = 0 ∨ m.data.val m.args.choiceCol r = 1)
    {d : ℕ} (hd : 0 < d) {seed : Option IntArg} {st s₀ : g.State}
    (hseed : seed = none ∧ s₀ = st ∨ ∃ k : ℤ, 0 < k ∧ seed = some (.int k) ∧ g.seed k = .ok s₀)
    (ridge : Option ℝ) :
    ∃ σ, Relists (specColumns alts s') (specColumns alts s) σ ∧
      ∀ (μ : Fin (specColumns alts s).length → ℝ) (sd : Fin vars.length → ℝ),
        fitMixedLogLik g m' (.int d) seed ridge (List.ofFn (μ ∘ σ) ++ List.ofFn sd) st =
          fitMixedLogLik g m (.int d) seed ridge (List.ofFn μ ++ List.ofFn sd) st := by
  have R := relisted hs hspec hspec' hsame hm hm'
  obtain ⟨σ, hσ, hl, hl', hnm⟩ := listing_order_columns hs hkeys hspec hspec' hsame hnames hm hm' ha
  refine ⟨σ, hσ, fun μ sd => ?_⟩
  obtain ⟨⟨-, -, -, q1, q3⟩, -⟩ := built_cols hm
  obtain ⟨⟨-, -, -, q2, q4⟩, -⟩ := built_cols hm'
  rw [hspec] at q1
  rw [hspec'] at q2
  have hkeys' : (s'.map Prod.fst).Nodup := (hs.map Prod.fst).nodup_iff.2 hkeys
  have k1 : (encodeAll s).map Prod.fst = s.map Prod.fst := by simp [encodeAll, Function.comp_def]
  have k2 : (encodeAll s').map Prod.fst = s'.map Prod.fst := by simp [encodeAll, Function.comp_def]
  have n1 : ∀ ns, m.args.names = some ns → (ns.map Prod.fst).Nodup := fun ns e => by
    rcases hnames with ⟨h1, -⟩ | ⟨ns₁, -, h1, -, -, h4, -⟩
    · rw [q3, h1] at e; cases e
    · rw [q3, h1] at e
      rw [← Option.some.inj e, h4, hspec, k1]
      exact hkeys
  have n2 : ∀ ns, m'.args.names = some ns → (ns.map Prod.fst).Nodup := fun ns e => by
    rcases hnames with ⟨-, h1⟩ | ⟨-, ns₁, -, h1, -, -, h4⟩
    · rw [q4, h1] at e; cases e
    · rw [q4, h1] at e
      rw [← Option.some.inj e, h4, hspec', k2]
      exact hkeys'
  obtain ⟨pos, -, hpl, hpv⟩ := model_mixing_positions hm hvars
  have hlt : ∀ j : Fin vars.length, j.val < pos.length := fun j => hpl.symm ▸ j.isLt
  let col : Fin vars.length → ℕ := fun j => pos[j.val]'(hlt j)
  have hname : ∀ j : Fin vars.length, m.indVarNames[col j]? = some (.str vars[j]) ∧
      ∀ i < col j, m.indVarNames[i]? ≠ some (.str vars[j]) := fun j => hpv j.val j.isLt (hlt j)
  have hcl : ∀ j, col j < (specColumns alts s).length := fun j => by
    rw [← hl]
    exact (List.getElem?_eq_some_iff.1 (hname j).1).1
  let col' : Fin vars.length → ℕ := fun j => σ.symm ⟨col j, hcl j⟩
  have hname' : ∀ j : Fin vars.length, m'.indVarNames[col' j]? = some (.str vars[j]) ∧
      ∀ i < col' j, m'.indVarNames[i]? ≠ some (.str vars[j]) := by
    intro j
    have h1 : m'.indVarNames[col' j]? = some (.str vars[j]) := by
      have := hnm (σ.symm ⟨col j, hcl j⟩)
      rw [σ.apply_symm_apply] at this
      exact this.trans (hname j).1
    refine ⟨h1, fun i hi h2 => ?_⟩
    have hi' : i < (specColumns alts s').length := lt_trans hi (σ.symm ⟨col j, hcl j⟩).isLt
    have h3 := hnm ⟨i, hi'⟩
    dsimp only at h3
    rw [h2] at h3
    have h4 : m.indVarNames[(σ ⟨i, hi'⟩ : ℕ)]? = m.indVarNames[col j]? := h3.symm.trans (hname j).1.symm
    have h5 := (List.getElem?_inj (by rw [hl]; exact (σ ⟨i, hi'⟩).isLt) hdist).1 h4
    have h6 : (⟨i, hi'⟩ : Fin _) = σ.symm ⟨col j, hcl j⟩ := by
      rw [← σ.symm_apply_apply ⟨i, hi'⟩]
      congr 1
      exact Fin.ext h5
    have : i = col' j := congrArg Fin.val h6
    omega
  have hvars' : a'.mixingVars = some vars := by rw [hsame]; exact hvars
  have hmix' : a'.mixingIdCol = some mixCol := by rw [hsame]; exact hmix
  rw [mixed_fit_maximises_table_logLik g hm hmix hcol hvars hne q1 hkeys n1 ha hrows hy hname hd hseed (by simp) sd ridge,
    mixed_fit_maximises_table_logLik g hm' hmix' (by rw [R.data]; exact hcol) hvars' hne q2 hkeys' n2
      (by rw [R.data, R.alt]; exact ha) (by rw [R.data]; exact hrows)
      (by obtain ⟨c, nm, dt, ds, nn, ar, ms⟩ := m'
          obtain ⟨r1, r2, r3, r4, r5, -, -, -, -⟩ := R
          dsimp only at r2 r5 ⊢
          subst r2
          rw [r5]
          exact hy) hname' hd hseed (by simp) sd ridge]
  have hpen : ((List.ofFn (μ ∘ σ) ++ List.ofFn sd).map fun x => x ^ 2).sum =
      ((List.ofFn μ ++ List.ofFn sd).map fun x => x ^ 2).sum := by
    simp only [List.map_append, List.sum_append, List.map_ofFn, List.sum_ofFn]
    congr 1
    exact σ.sum_comp fun k => μ k ^ 2
  have hcoef : ∀ z : Fin vars.length → ℝ, personCoefs (List.ofFn (μ ∘ σ)) sd col' z =
      List.ofFn ((fun k : Fin (specColumns alts s).length => μ k + ∑ j with col j = k, sd j * z j) ∘ σ) := by
    intro z
    unfold personCoefs
    apply List.ext_getElem
    · simp
    · intro i h1 h2
      simp only [List.getElem_ofFn, Function.comp_apply, Fin.getElem_fin]
      have hi : i < (specColumns alts s').length := by simpa using h2
      congr 1
      refine Finset.sum_congr ?_ fun _ _ => rfl
      ext j
      simp only [Finset.mem_filter, Finset.mem_univ, true_and]
      show ((σ.symm ⟨col j, hcl j⟩ : Fin _) : ℕ) = i ↔ col j = σ ⟨i, hi⟩
      constructor
      · intro e
        have : σ.symm ⟨col j, hcl j⟩ = ⟨i, hi⟩ := Fin.ext e
        rw [← this, σ.apply_symm_apply]
      · intro e
        have : (⟨col j, hcl j⟩ : Fin _) = σ ⟨i, hi⟩ := Fin.ext e
        rw [this, σ.symm_apply_apply]
  have hcoef0 : ∀ z : Fin vars.length → ℝ, personCoefs (List.ofFn μ) sd col z =
      List.ofFn (fun k : Fin (specColumns alts s).length => μ k + ∑ j with col j = k, sd j * z j) := by
    intro z
    unfold personCoefs
    apply List.ext_getElem
    · simp
    · intro i h1 h2
      simp
  obtain ⟨c, nm, dt, ds, nn, ar, ms⟩ := m'
  obtain ⟨r1, r2, r3, r4, r5, -, -, -, -⟩ := R
  dsimp only at r1 r2 r3 r4 r5 ⊢
  subst r1 r2
  rw [r3, r4, r5, hpen]
  have hu : ∀ z : Fin vars.length → ℝ → ℝ,
      mixedUtility m.data m.args.altIdCol mixCol (specColumns alts s') (List.ofFn (μ ∘ σ)) sd col' z =
        mixedUtility m.data m.args.altIdCol mixCol (specColumns alts s) (List.ofFn μ) sd col z := fun z => by
    funext r
    simp only [mixedUtility]
    rw [hcoef, hcoef0, rowIndex_relisted hσ]
  simp only [hu]

end

end Pylogit
