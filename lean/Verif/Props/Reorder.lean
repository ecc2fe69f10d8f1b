import Verif.Spec.Reorder
import Verif.Props.MixedFit
import Verif.Props.NestedFit
import Verif.Props.PredictLocal

/-!
# Row order and ids do not matter to a fit (C108)
-/

open Matrix

namespace Pylogit

open Spec

noncomputable section

/-! ## Helper lemmas -/

private lemma sameData_intercept {ids : List String} {lab : String → ℝ → ℝ} {df df' : Frame ℝ}
    (h : SameData ids lab df df') (hids : ∀ c ∈ ids, c ∈ df.columns) (spec : List (String × PyVal ℝ)) :
    SameData ids lab (addIntercept spec df) (addIntercept spec df') := by
  obtain ⟨h1, h2, h3, σ, h4⟩ := h
  unfold addIntercept
  rw [h1]
  split_ifs with hi
  · refine ⟨rfl, h2, h3, σ, fun c hc r => ?_⟩
    by_cases e : c = "intercept"
    · simp only [e, if_true]
      rw [h3 _ fun h => hi.2 (hids _ h)]
      rfl
    · simp only [e, if_false]
      exact h4 c (by simpa [e] using hc) r
  · exact ⟨h1, h2, h3, σ, h4⟩

private lemma built_args {env : Env ℝ} {ty : String} {df : Frame ℝ} {a : ModelArgs ℝ} {m : ChoiceModel ℝ}
    (hm : createChoiceModel env ty df a = .ok m) :
    ∃ cls, modelTypeToClass.lookup ty = some cls ∧ m.cls = cls ∧ m.args = argsFor cls a := by
  unfold createChoiceModel at hm
  split at hm
  · cases hm
  rename_i cls hlk
  rw [classInit_iff] at hm
  obtain ⟨-, hm⟩ := hm
  obtain ⟨-, h2⟩ := baseInit_ok.1 hm
  obtain ⟨-, -, d, -, -, rfl⟩ := initBuild_iff.1 h2
  exact ⟨cls, hlk, rfl, rfl⟩

/-- Two models built with the same arguments from the same data: same class, arguments, and data in another order. -/
private lemma built_same {env : Env ℝ} {ty : String} {df df' : Frame ℝ} {a : ModelArgs ℝ} {m m' : ChoiceModel ℝ}
    (hm : createChoiceModel env ty df a = .ok m) (hm' : createChoiceModel env ty df' a = .ok m')
    {ids : List String} {lab : String → ℝ → ℝ} (h : SameData ids lab df df')
    (hids : ∀ c ∈ ids, c ∈ df.columns) :
    m'.cls = m.cls ∧ m'.args = m.args ∧ SameData ids lab m.data m'.data := by
  obtain ⟨cls, q1, q2, q3⟩ := built_args hm
  obtain ⟨cls', q1', q2', q3'⟩ := built_args hm'
  rw [q1] at q1'
  cases q1'
  refine ⟨q2'.trans q2.symm, q3'.trans q3.symm, ?_⟩
  rw [← (built_own hm).2.1, ← (built_own hm').2.1, q3, q3']
  exact sameData_intercept h hids _

private lemma altsOf_same {ids : List String} {lab : String → ℝ → ℝ} {df df' : Frame ℝ}
    (h : SameData ids lab df df') {col : String} (hc : col ∈ df.columns) (hk : col ∉ ids) {alts : List ℝ}
    (ha : AltsOf df col alts) : AltsOf df' col alts := by
  obtain ⟨-, -, h3, σ, h4⟩ := h
  refine ⟨ha.ascending, fun a => (ha.mem a).trans ?_⟩
  have : ∀ r, df'.val col r = df.val col (σ r) := fun r => by rw [h4 _ hc, h3 _ hk]; rfl
  constructor
  · rintro ⟨r, rfl⟩
    exact ⟨σ.symm r, by rw [this]; simp⟩
  · rintro ⟨r, rfl⟩
    exact ⟨σ r, (this r).symm⟩

/-- What the construction keeps of the user's arguments, and the columns it requires. -/
theorem built_cols {env : Env ℝ} {ty : String} {df : Frame ℝ} {a : ModelArgs ℝ} {m : ChoiceModel ℝ}
    (hm : createChoiceModel env ty df a = .ok m) :
    (m.args.altIdCol = a.altIdCol ∧ m.args.obsIdCol = a.obsIdCol ∧ m.args.choiceCol = a.choiceCol ∧
      m.args.specification = a.specification ∧ m.args.names = a.names) ∧
    (a.altIdCol ∈ df.columns ∧ a.obsIdCol ∈ df.columns ∧ a.choiceCol ∈ df.columns) := by
  unfold createChoiceModel at hm
  split at hm
  · cases hm
  rename_i cls hlk
  rw [classInit_iff] at hm
  obtain ⟨-, hm⟩ := hm
  obtain ⟨h1, h2⟩ := baseInit_ok.1 hm
  obtain ⟨c1, -⟩ := initChecks_ok.1 h1
  obtain ⟨-, -, d, -, -, rfl⟩ := initBuild_iff.1 h2
  refine ⟨by cases cls <;> simp [argsFor], ?_⟩
  cases cls <;> simpa [argsFor] using c1

/-- The facts about the two models that all the theorems use. -/
private structure Facts (m m' : ChoiceModel ℝ) (alts : List ℝ) (s : List (String × SpecVal ℝ))
    (lab : String → ℝ → ℝ) (a : ModelArgs ℝ) (df : Frame ℝ)
    (σ : Fin m'.data.numRows ≃ Fin m.data.numRows) : Prop where
  cls : m'.cls = m.cls
  args : m'.args = m.args
  names : a.names = m.args.names
  spec : m.args.specification = encodeAll s
  isAlts : AltsOf m.data m.args.altIdCol alts
  isAlts' : AltsOf m'.data m.args.altIdCol alts
  alt : ∀ r, m'.data.val m.args.altIdCol r = m.data.val m.args.altIdCol (σ r)
  choice : ∀ r, m'.data.val m.args.choiceCol r = m.data.val m.args.choiceCol (σ r)
  obs : ∀ r, m'.data.val m.args.obsIdCol r = lab m.args.obsIdCol (m.data.val m.args.obsIdCol (σ r))
  var : ∀ kv ∈ s, ∀ r, m'.data.val kv.1 r = m.data.val kv.1 (σ r)
  other : ∀ c ∈ df.columns, ∀ r, m'.data.val c r = lab c (m.data.val c (σ r))

private lemma facts {env : Env ℝ} {ty : String} {df df' : Frame ℝ} {a : ModelArgs ℝ} {m m' : ChoiceModel ℝ}
    (hm : createChoiceModel env ty df a = .ok m) (hm' : createChoiceModel env ty df' a = .ok m')
    {ids : List String} {lab : String → ℝ → ℝ} (h : SameData ids lab df df') (hids : ∀ c ∈ ids, c ∈ df.columns)
    (h1 : a.altIdCol ∉ ids) (h2 : a.choiceCol ∉ ids) {s : List (String × SpecVal ℝ)}
    (hspec : a.specification = encodeAll s) (hvar : ∀ v ∈ s.map Prod.fst, v ∉ ids)
    {alts : List ℝ} (ha : AltsOf df a.altIdCol alts) :
    ∃ σ, Facts m m' alts s lab a df σ := by
  obtain ⟨q1, q2, q3⟩ := built_same hm hm' h hids
  obtain ⟨⟨e1, e2, e3, e4, e5⟩, c1, c2, c3⟩ := built_cols hm
  have hmd := (built_own hm).2.1
  have hk : ∀ c ∈ df.columns, c ∈ m.data.columns := fun c hc => by
    rw [← hmd]; exact addIntercept_columns _ _ _ hc
  have ha' : AltsOf m.data m.args.altIdCol alts := by
    refine ⟨ha.ascending, fun b => (ha.mem b).trans ?_⟩
    rw [← mem_colList, ← mem_colList, e1, ← hmd, addIntercept_colList _ _ _ c1]
  have hsk : ∀ c ∈ m.args.specification.map Prod.fst, c ∈ m.data.columns :=
    ((createDesignMatrix_ok_iff rfl).1 (built_own hm).1.design).2.1
  have q3' := q3
  obtain ⟨-, p2, p3, σ, p4⟩ := q3
  have kept : ∀ c ∈ m.data.columns, c ∉ ids → ∀ r, m'.data.val c r = m.data.val c (σ r) := fun c hc hi r => by
    rw [p4 c hc, p3 c hi]; rfl
  exact ⟨σ, q1, q2, e5.symm, e4.trans hspec, ha',
    altsOf_same q3' (e1 ▸ hk _ c1) (e1 ▸ h1) ha', kept _ (e1 ▸ hk _ c1) (e1 ▸ h1), kept _ (e3 ▸ hk _ c3) (e3 ▸ h2),
    p4 _ (e2 ▸ hk _ c2), fun kv hkv => kept _ (hsk _ (by
      rw [e4, hspec]
      simp only [encodeAll, List.map_map, List.mem_map, Function.comp_apply]
      exact ⟨kv, hkv, rfl⟩)) (hvar _ (List.mem_map_of_mem hkv)), fun c hc => p4 c (hk c hc)⟩

private lemma rowIndex_same {df df' : Frame ℝ} {altCol : String} {σ : Fin df'.numRows ≃ Fin df.numRows}
    {s : List (String × SpecVal ℝ)} {alts : List ℝ} (halt : ∀ r, df'.val altCol r = df.val altCol (σ r))
    (hv : ∀ kv ∈ s, ∀ r, df'.val kv.1 r = df.val kv.1 (σ r)) (beta : List ℝ) (r : Fin df'.numRows) :
    rowIndex df' altCol (specColumns alts s) beta r = rowIndex df altCol (specColumns alts s) beta (σ r) := by
  unfold rowIndex
  congr 1
  refine List.map_congr_left fun p hp => ?_
  congr 1
  have hp1 : p.1 ∈ specColumns alts s := (List.of_mem_zip hp).1
  obtain ⟨kv, hkv, hd⟩ := List.mem_flatMap.1 hp1
  have hval := hv kv hkv r
  cases hsv : kv.2 with
  | allSame =>
    rw [hsv] at hd
    simp only [SpecVal.columns, List.mem_singleton] at hd
    rw [hd]
    exact hval
  | allDiff =>
    rw [hsv] at hd
    simp only [SpecVal.columns, List.mem_map] at hd
    obtain ⟨a, -, hd⟩ := hd
    rw [← hd]
    simp only [ColDesc.value, halt, hval]
  | groups l =>
    rw [hsv] at hd
    simp only [SpecVal.columns, List.mem_map] at hd
    obtain ⟨a, -, hd⟩ := hd
    rw [← hd]
    cases a <;> simp only [ColDesc.value, halt, hval]

private lemma rowsOf_same {R R' O O' : Type} [Fintype R] [Fintype R'] [DecidableEq O] [DecidableEq O'] (σ : R' ≃ R)
    {f : R → O} {f' : R' → O'} (hf : ∀ r s, f' r = f' s ↔ f (σ r) = f (σ s)) (F : R → ℝ) (r : R') :
    ∑ s ∈ rowsOf f' (f' r), F (σ s) = ∑ s ∈ rowsOf f (f (σ r)), F s := by
  refine Finset.sum_equiv σ (fun s => ?_) fun _ _ => rfl
  simp only [mem_rowsOf]
  exact hf s r

lemma clippedLogit_same {R R' O O' : Type} [Fintype R] [Fintype R'] [DecidableEq O] [DecidableEq O']
    (σ : R' ≃ R) {f : R → O} {f' : R' → O'} (hf : ∀ r s, f' r = f' s ↔ f (σ r) = f (σ s)) (u : R → ℝ) (r : R') :
    clippedLogit f' (fun r => u (σ r)) r = clippedLogit f u (σ r) := by
  unfold clippedLogit logitProb
  rw [rowsOf_same σ hf fun s => Real.exp (clip700 (u s))]

/-- Two models built with the same arguments from the same data, in another row order and with renumbered observations:
the names of their variables agree, and the rows of one are those of the other, in another order. -/
theorem reordered_models {env : Env ℝ} {ty : String} {df df' : Frame ℝ} {a : ModelArgs ℝ} {m m' : ChoiceModel ℝ}
    (hm : createChoiceModel env ty df a = .ok m) (hm' : createChoiceModel env ty df' a = .ok m')
    {lab : String → ℝ → ℝ} (hdata : SameData [a.obsIdCol] lab df df')
    (hobs : a.altIdCol ≠ a.obsIdCol ∧ a.choiceCol ≠ a.obsIdCol) {s : List (String × SpecVal ℝ)}
    (hspec : a.specification = encodeAll s) (hvar : a.obsIdCol ∉ s.map Prod.fst) {alts : List ℝ}
    (ha : AltsOf df a.altIdCol alts) :
    ∃ σ : Fin m'.data.numRows ≃ Fin m.data.numRows, m'.cls = m.cls ∧ m'.args = m.args ∧
      m'.indVarNames = m.indVarNames ∧ m.args.specification = encodeAll s ∧
      AltsOf m.data m.args.altIdCol alts ∧ AltsOf m'.data m.args.altIdCol alts ∧
      (∀ r, m'.data.val m.args.choiceCol r = m.data.val m.args.choiceCol (σ r)) ∧
      (∀ r, m'.data.val m.args.obsIdCol r = lab m.args.obsIdCol (m.data.val m.args.obsIdCol (σ r))) ∧
      (∀ beta r, rowIndex m'.data m.args.altIdCol (specColumns alts s) beta r =
        rowIndex m.data m.args.altIdCol (specColumns alts s) beta (σ r)) ∧
      ∀ c ∈ df.columns, ∀ r, m'.data.val c r = lab c (m.data.val c (σ r)) := by
  obtain ⟨-, -, c2, -⟩ := built_cols hm
  obtain ⟨σ, F⟩ := facts hm hm' hdata (by simpa using c2) (by simpa using hobs.1) (by simpa using hobs.2) hspec
    (fun v hv => by
      rw [List.mem_singleton]
      rintro rfl
      exact hvar hv) ha
  refine ⟨σ, F.cls, F.args, ?_, F.spec, F.isAlts, F.isAlts', F.choice, F.obs, rowIndex_same F.alt F.var, F.other⟩
  have h1 := (built_own hm).1.design
  have h2 := (built_own hm').1.design
  rw [F.args] at h2
  rw [F.spec] at h1 h2
  obtain ⟨-, -, -, -, cs, e1, -, -, n1⟩ := (createDesignMatrix_ok_iff (altsOf_eq F.isAlts)).1 h1
  obtain ⟨-, -, -, -, cs', e2, -, -, n2⟩ := (createDesignMatrix_ok_iff (altsOf_eq F.isAlts')).1 h2
  rw [designColumns_encode] at e1 e2
  rcases n1 with ⟨k, n1⟩ | ⟨ns, k, n1⟩ <;> rcases n2 with ⟨k', n2⟩ | ⟨ns', k', n2⟩ <;> rw [k] at k'
  · rw [n1, n2, ← Except.ok.inj e1, ← Except.ok.inj e2]
    simp [described, Function.comp_def]
  · cases k'
  · cases k'
  · cases k'
    exact Except.ok.inj (n2.symm.trans n1)

/-! ## C108: logit-type models -/

/-- **C108** (logit-type models). Two tables hold the same data, in another row order and with renumbered observations;
neither the alternatives, the choices nor the variables of the model are renumbered.  Models built with the same
arguments on the two tables are fitted by maximising the same function of the parameters, provided both tables list
the observations in ascending order (otherwise the fit raises `ValueError`, `fit_maximises_table_logLik`). -/
theorem fit_ignores_row_order {env : Env ℝ} {ty : String} {df df' : Frame ℝ} {a : ModelArgs ℝ}
    {m m' : ChoiceModel ℝ} (hm : createChoiceModel env ty df a = .ok m)
    (hm' : createChoiceModel env ty df' a = .ok m') (hcls : m.cls ≠ .nested ∧ m.cls ≠ .mixed)
    {lab : String → ℝ → ℝ} (hdata : SameData [a.obsIdCol] lab df df')
    (hobs : a.altIdCol ≠ a.obsIdCol ∧ a.choiceCol ≠ a.obsIdCol)
    {s : List (String × SpecVal ℝ)} (hspec : a.specification = encodeAll s)
    (hvar : a.obsIdCol ∉ s.map Prod.fst)
    (hasc : (df.colList a.obsIdCol).Pairwise (· ≤ ·)) (hasc' : (df'.colList a.obsIdCol).Pairwise (· ≤ ·))
    {alts : List ℝ} (ha : AltsOf df a.altIdCol alts) (hasym : m.cls = .asym → 2 ≤ alts.length)
    {p : ParamArrays} {q : AltParams}
    (hp : HoldsFor m.cls alts m.args.interceptRefPos m.args.shapeRefPos p q)
    (hlen : p.index.length = (specColumns alts s).length) :
    (fitInputs m' m'.data).logLik id m'.cls m'.args.interceptRefPos m'.args.shapeRefPos p =
      (fitInputs m m.data).logLik id m.cls m.args.interceptRefPos m.args.shapeRefPos p := by
  obtain ⟨⟨e1, e2, e3, -, -⟩, c1, c2, c3⟩ := built_cols hm
  obtain ⟨-, -, c2', -⟩ := built_cols hm'
  obtain ⟨σ, F⟩ := facts hm hm' hdata (by simpa using c2) (by simpa using hobs.1) (by simpa using hobs.2) hspec
    (fun v hv => by
      rw [List.mem_singleton]
      rintro rfl
      exact hvar hv) ha
  have i1 : (m.data.colList m.args.obsIdCol).Pairwise (· ≤ ·) := by
    rw [e2, ← (built_own hm).2.1, addIntercept_colList _ _ _ c2]; exact hasc
  have i2 : (m'.data.colList m'.args.obsIdCol).Pairwise (· ≤ ·) := by
    rw [F.args, e2, ← (built_own hm').2.1, addIntercept_colList _ _ _ c2']; exact hasc'
  rw [fit_maximises_table_logLik hm hcls F.spec F.isAlts hasym hp hlen,
    fit_maximises_table_logLik hm' (by rw [F.cls]; exact hcls) (by rw [F.args]; exact F.spec)
      (by rw [F.args]; exact F.isAlts') (by rw [F.cls]; exact hasym) (by rw [F.cls, F.args]; exact hp) hlen,
    if_pos i1, if_pos i2]
  congr 1
  rw [← σ.sum_comp]
  refine Finset.sum_congr rfl fun r _ => ?_
  rw [F.args, F.choice, F.cls]
  congr 2
  rw [← clippedLogit_same σ (f := m.data.val m.args.obsIdCol) (f' := m'.data.val m.args.obsIdCol) (fun r s => by
    rw [F.obs, F.obs]
    exact (hdata.2.1 _).eq_iff)]
  congr 1
  funext r
  rw [F.alt, rowIndex_same F.alt F.var]

/-! ## C108: nested logit -/

private lemma nestSum_same {R R' O O' N : Type} [Fintype R] [Fintype R'] [Fintype N] [DecidableEq O] [DecidableEq O']
    [DecidableEq N] (σ : R' ≃ R) {f : R → O} {f' : R' → O'} (hf : ∀ r s, f' r = f' s ↔ f (σ r) = f (σ s))
    (g : R → N) (V : R → ℝ) (lam : N → ℝ) (r : R') (n : N) :
    nestSum f' (fun r => g (σ r)) (fun r => V (σ r)) lam (f' r) n = nestSum f g V lam (f (σ r)) n ∧
    ((nestRows f' (fun r => g (σ r)) (f' r) n).Nonempty ↔ (nestRows f g (f (σ r)) n).Nonempty) := by
  have hmem : ∀ s, s ∈ nestRows f' (fun r => g (σ r)) (f' r) n ↔ σ s ∈ nestRows f g (f (σ r)) n := by
    intro s
    simp [nestRows, hf]
  refine ⟨Finset.sum_equiv σ hmem fun _ _ => rfl, ?_⟩
  constructor
  · rintro ⟨s, hs⟩
    exact ⟨_, (hmem s).1 hs⟩
  · rintro ⟨s, hs⟩
    exact ⟨σ.symm s, (hmem _).2 (by simpa using hs)⟩

private lemma nestedProb_same {R R' O O' N : Type} [Fintype R] [Fintype R'] [Fintype N] [DecidableEq O]
    [DecidableEq O'] [DecidableEq N] (σ : R' ≃ R) {f : R → O} {f' : R' → O'}
    (hf : ∀ r s, f' r = f' s ↔ f (σ r) = f (σ s)) (g : R → N) (V : R → ℝ) (lam : N → ℝ) (r : R') :
    nestedProb f' (fun r => g (σ r)) (fun r => V (σ r)) lam r = nestedProb f g V lam (σ r) := by
  have h1 : ∀ n, nestSum f' (fun r => g (σ r)) (fun r => V (σ r)) lam (f' r) n = nestSum f g V lam (f (σ r)) n :=
    fun n => (nestSum_same σ hf g V lam r n).1
  have h2 : availNests f' (fun r => g (σ r)) (f' r) = availNests f g (f (σ r)) := by
    ext n
    simp only [availNests, Finset.mem_filter, Finset.mem_univ, true_and]
    exact (nestSum_same σ hf g V lam r n).2
  simp only [nestedProb, nestProb, condProb, h1, h2]

/-- **C108** (nested logit). The same as `fit_ignores_row_order`, for nested logit models. -/
theorem nested_fit_ignores_row_order {env : Env ℝ} {ty : String} {df df' : Frame ℝ} {a : ModelArgs ℝ}
    {m m' : ChoiceModel ℝ} (hm : createChoiceModel env ty df a = .ok m)
    (hm' : createChoiceModel env ty df' a = .ok m') (hcls : m.cls = .nested)
    {lab : String → ℝ → ℝ} (hdata : SameData [a.obsIdCol] lab df df')
    (hobs : a.altIdCol ≠ a.obsIdCol ∧ a.choiceCol ≠ a.obsIdCol)
    {ns : List (String × List ℝ)} (hns : a.nestSpec = some (encodeNests ns)) (hk : (ns.map Prod.fst).Nodup)
    {s : List (String × SpecVal ℝ)} (hspec : a.specification = encodeAll s)
    (hvar : a.obsIdCol ∉ s.map Prod.fst)
    (hasc : (df.colList a.obsIdCol).Pairwise (· ≤ ·)) (hasc' : (df'.colList a.obsIdCol).Pairwise (· ≤ ·))
    {alts : List ℝ} (ha : AltsOf df a.altIdCol alts) {x : List ℝ}
    (hx : x.length = ns.length + (specColumns alts s).length) :
    fitNestedLogLik m' ns x = fitNestedLogLik m ns x := by
  obtain ⟨⟨e1, e2, e3, -, -⟩, c1, c2, c3⟩ := built_cols hm
  obtain ⟨-, -, c2', -⟩ := built_cols hm'
  obtain ⟨σ, F⟩ := facts hm hm' hdata (by simpa using c2) (by simpa using hobs.1) (by simpa using hobs.2) hspec
    (fun v hv => by
      rw [List.mem_singleton]
      rintro rfl
      exact hvar hv) ha
  have i1 : (m.data.colList m.args.obsIdCol).Pairwise (· ≤ ·) := by
    rw [e2, ← (built_own hm).2.1, addIntercept_colList _ _ _ c2]; exact hasc
  have i2 : (m'.data.colList m'.args.obsIdCol).Pairwise (· ≤ ·) := by
    rw [F.args, e2, ← (built_own hm').2.1, addIntercept_colList _ _ _ c2']; exact hasc'
  obtain ⟨-, g, hg, -, -⟩ := built_nests hm hcls hns hk
  have hg' : ∀ r, m'.data.val m'.args.altIdCol r ∈ (ns.get (g (σ r))).2 := fun r => by
    rw [F.args, F.alt]; exact hg (σ r)
  rw [nested_fit_maximises_table_logLik hm hcls hns hk F.spec F.isAlts hx hg,
    nested_fit_maximises_table_logLik hm' (F.cls.trans hcls) hns hk (by rw [F.args]; exact F.spec)
      (by rw [F.args]; exact F.isAlts') hx hg',
    if_pos i1, if_pos i2]
  congr 1
  rw [← σ.sum_comp]
  refine Finset.sum_congr rfl fun r _ => ?_
  rw [F.args, F.choice]
  congr 2
  rw [← nestedProb_same σ (f := m.data.val m.args.obsIdCol) (f' := m'.data.val m.args.obsIdCol) (fun r s => by
    rw [F.obs, F.obs]
    exact (hdata.2.1 _).eq_iff)]
  congr 1
  funext r
  rw [rowIndex_same F.alt F.var]

/-! ## C108: mixed logit -/

private lemma names_same {env : Env ℝ} {m m' : ChoiceModel ℝ} {alts : List ℝ} {s : List (String × SpecVal ℝ)}
    {lab : String → ℝ → ℝ} {a : ModelArgs ℝ} {df : Frame ℝ} {σ} (F : Facts m m' alts s lab a df σ)
    (h : OwnTable env m) (h' : OwnTable env m') : m'.indVarNames = m.indVarNames := by
  have d := h.design
  have d' := h'.design
  rw [F.args, F.spec] at d'
  rw [F.spec] at d
  obtain ⟨-, -, -, -, cs, h1, -, -, h3⟩ := (createDesignMatrix_ok_iff (altsOf_eq F.isAlts)).1 d
  obtain ⟨-, -, -, -, cs', h1', -, -, h3'⟩ := (createDesignMatrix_ok_iff (altsOf_eq F.isAlts')).1 d'
  rw [designColumns_encode] at h1 h1'
  rw [← Except.ok.inj h1] at h3
  rw [← Except.ok.inj h1'] at h3'
  rcases h3 with ⟨e, h3⟩ | ⟨ns, e, h3⟩ <;> rcases h3' with ⟨e', h3'⟩ | ⟨ns', e', h3'⟩
  · rw [h3, h3']
    simp [described, Function.comp_def]
  · rw [e] at e'; cases e'
  · rw [e] at e'; cases e'
  · rw [e] at e'
    cases e'
    rw [h3] at h3'
    exact (Except.ok.inj h3').symm

private lemma normalStream_cast (g : Rng) {n n' d : ℕ} (h : n = n') (j : ℕ) (s : g.State) (i : Fin n) (i' : Fin n')
    (hi : i.val = i'.val) (t : Fin d) : normalStream g n d j s i t = normalStream g n' d j s i' t := by
  subst h
  rw [Fin.ext hi]

private lemma personDraw_map (g : Rng) {f : ℝ → ℝ} (hf : Function.Injective f) {people people' : List ℝ}
    (h : people' = people.map f) {d : ℕ} (s : g.State) (j : ℕ) (who : ℝ) (t : Fin d) :
    personDraw g people' d s j (f who) t = personDraw g people d s j who t := by
  subst h
  have hi : (people.map f).idxOf (f who) = people.idxOf who := by
    induction people with
    | nil => rfl
    | cons a l ih =>
      by_cases e : a = who
      · subst e; simp
      · rw [List.map_cons, List.idxOf_cons_ne _ (fun h => e (hf h)), List.idxOf_cons_ne _ e, ih]
  unfold personDraw
  by_cases hw : people.idxOf who < people.length
  · rw [dif_pos hw, dif_pos (by rw [hi, List.length_map]; exact hw)]
    exact normalStream_cast g (by simp) _ _ _ _ hi _
  · rw [dif_neg hw, dif_neg (by rw [hi, List.length_map]; exact hw)]

private lemma nodup_firstAppearance {ι : Type} [LinearOrder ι] (l : List ι) : (firstAppearance l).Nodup :=
  (firstAppearance_pairwise l).imp fun h e => by subst e; exact lt_irrefl _ h

/-- **C108** (mixed logit, what happens). Two tables hold the same data, in another row order and with renumbered
observations and people.  The fit of a mixed logit model on the second maximises the simulated log-likelihood of the
first, with one difference: the draws are dealt to the people in the order in which the second table first mentions
them. -/
theorem mixed_fit_deals_draws (g : Rng) {env : Env ℝ} {df df' : Frame ℝ} {a : ModelArgs ℝ}
    {m m' : ChoiceModel ℝ} (hm : createChoiceModel env "Mixed Logit" df a = .ok m)
    (hm' : createChoiceModel env "Mixed Logit" df' a = .ok m')
    {mixCol : String} (hmix : a.mixingIdCol = some mixCol) (hcol : mixCol ∈ df.columns)
    {lab : String → ℝ → ℝ} (hdata : SameData [a.obsIdCol, mixCol] lab df df')
    (halt : a.altIdCol ∉ [a.obsIdCol, mixCol]) (hchoice : a.choiceCol ∉ [a.obsIdCol, mixCol])
    {vars : List String} (hvars : a.mixingVars = some vars) (hne : vars ≠ [])
    {s : List (String × SpecVal ℝ)} (hspec : a.specification = encodeAll s)
    (hvar : ∀ v ∈ s.map Prod.fst, v ∉ [a.obsIdCol, mixCol])
    (hkeys : (s.map Prod.fst).Nodup) (hnm : ∀ ns, a.names = some ns → (ns.map Prod.fst).Nodup)
    (hasc' : (df'.colList a.obsIdCol).Pairwise (· ≤ ·))
    {alts : List ℝ} (ha : AltsOf df a.altIdCol alts) (hrows : 0 < df.numRows)
    (hy : ∀ r, df.val a.choiceCol r = 0 ∨ df.val a.choiceCol r = 1)
    {col : Fin vars.length → ℕ}
    (hname : ∀ j, m.indVarNames[col j]? = some (.str vars[j]) ∧
      ∀ i < col j, m.indVarNames[i]? ≠ some (.str vars[j]))
    {d : ℕ} (hd : 0 < d) {seed : Option IntArg} {st s₀ : g.State}
    (hseed : seed = none ∧ s₀ = st ∨ ∃ k : ℤ, 0 < k ∧ seed = some (.int k) ∧ g.seed k = .ok s₀)
    {mean : List ℝ} (hmean : mean.length = (specColumns alts s).length) (sd : Fin vars.length → ℝ)
    (ridge : Option ℝ) :
    fitMixedLogLik g m' (.int d) seed ridge (mean ++ List.ofFn sd) st =
      .ok (tableSimLogLik m.data a.obsIdCol mixCol a.choiceCol
            (firstAppearance (df.colList mixCol)) (fun t : Fin d =>
              mixedUtility m.data a.altIdCol mixCol (specColumns alts s) mean sd col fun j who =>
                personDraw g (firstAppearance (df'.colList mixCol)) d s₀ j (lab mixCol who) t)
          - ridge.getD 0 * ((mean ++ List.ofFn sd).map fun x => x ^ 2).sum) := by
  obtain ⟨⟨e1, e2, e3, -, -⟩, c1, c2, c3⟩ := built_cols hm
  obtain ⟨-, -, c2', -⟩ := built_cols hm'
  obtain ⟨σ, F⟩ := facts hm hm' hdata (by simpa using ⟨c2, hcol⟩) halt hchoice hspec hvar ha
  have i2 : (m'.data.colList m'.args.obsIdCol).Pairwise (· ≤ ·) := by
    rw [F.args, e2, ← (built_own hm').2.1, addIntercept_colList _ _ _ c2']; exact hasc'
  have hcol' : mixCol ∈ df'.columns := by rw [hdata.1]; exact hcol
  have hpeople : m.data.colList mixCol = df.colList mixCol := by
    rw [← (built_own hm).2.1, addIntercept_colList _ _ _ hcol]
  have hpeople' : m'.data.colList mixCol = df'.colList mixCol := by
    rw [← (built_own hm').2.1, addIntercept_colList _ _ _ hcol']
  have hmrows : m.data.numRows = df.numRows := by
    rw [← (built_own hm).2.1, addIntercept_numRows]
  have hy' : ∀ r, m.data.val m.args.choiceCol r = 0 ∨ m.data.val m.args.choiceCol r = 1 := by
    intro r
    have : m.data.val m.args.choiceCol r ∈ df.colList a.choiceCol := by
      rw [← addIntercept_colList m.args.specification _ _ c3, (built_own hm).2.1, e3]
      exact mem_colList.2 ⟨r, rfl⟩
    obtain ⟨r', hr'⟩ := mem_colList.1 this
    rw [← hr']
    exact hy r'
  have key := mixed_fit_maximises_table_logLik g hm' hmix
    (by rw [← (built_own hm').2.1]; exact addIntercept_columns _ _ _ hcol') hvars hne
    (by rw [F.args]; exact F.spec) hkeys (by rw [F.args, ← F.names]; exact hnm) (by rw [F.args]; exact F.isAlts')
    (by
      have := Fintype.card_congr σ
      simp only [Fintype.card_fin] at this
      omega)
    (by rw [F.args]; intro r; rw [F.choice]; exact hy' _)
    (col := col) (by rw [names_same F (built_own hm).1 (built_own hm').1]; exact hname) hd hseed hmean sd ridge
  rw [if_pos i2] at key
  rw [key]
  congr 2
  rw [F.args, hpeople', ← e1, ← e2, ← e3]
  have hperm : (firstAppearance (df'.colList mixCol)).Perm
      ((firstAppearance (df.colList mixCol)).map (lab mixCol)) := by
    refine (List.perm_ext_iff_of_nodup (nodup_firstAppearance _)
      ((nodup_firstAppearance _).map (hdata.2.1 _))).2 fun x => ?_
    rw [mem_firstAppearance, ← hpeople', mem_colList, List.mem_map]
    constructor
    · rintro ⟨r, rfl⟩
      refine ⟨m.data.val mixCol (σ r), ?_, (F.other _ hcol r).symm⟩
      rw [mem_firstAppearance, ← hpeople, mem_colList]
      exact ⟨_, rfl⟩
    · rintro ⟨y, hy, rfl⟩
      rw [mem_firstAppearance, ← hpeople, mem_colList] at hy
      obtain ⟨r, rfl⟩ := hy
      exact ⟨σ.symm r, by rw [F.other _ hcol]; simp⟩
  unfold tableSimLogLik
  rw [(hperm.map _).sum_eq, List.map_map]
  congr 1
  refine List.map_congr_left fun who _ => ?_
  simp only [Function.comp_apply]
  congr 2
  funext t
  refine Finset.prod_equiv σ (fun r => ?_) fun r _ => ?_
  · simp only [Finset.mem_filter, Finset.mem_univ, true_and]
    rw [F.other _ hcol, F.choice, (hdata.2.1 _).eq_iff]
  · rw [← clippedLogit_same σ (f := m.data.val m.args.obsIdCol) (f' := m'.data.val m.args.obsIdCol) (fun r s => by
      rw [F.obs, F.obs]
      exact (hdata.2.1 _).eq_iff)]
    congr 1
    funext r
    unfold mixedUtility
    rw [rowIndex_same F.alt F.var, F.other _ hcol]

/-- **C108** (mixed logit, proved part). If in addition both tables first mention the people in the same order, the fits
on both tables, with the same seed (or the same state of the generator), maximise the same function.  What is missing
from the full property is false: `mixed_fit_depends_on_order`. -/
theorem mixed_fit_ignores_row_order_partial (g : Rng) {env : Env ℝ} {df df' : Frame ℝ} {a : ModelArgs ℝ}
    {m m' : ChoiceModel ℝ} (hm : createChoiceModel env "Mixed Logit" df a = .ok m)
    (hm' : createChoiceModel env "Mixed Logit" df' a = .ok m')
    {mixCol : String} (hmix : a.mixingIdCol = some mixCol) (hcol : mixCol ∈ df.columns)
    {lab : String → ℝ → ℝ} (hdata : SameData [a.obsIdCol, mixCol] lab df df')
    (horder : firstAppearance (df'.colList mixCol) = (firstAppearance (df.colList mixCol)).map (lab mixCol))
    (halt : a.altIdCol ∉ [a.obsIdCol, mixCol]) (hchoice : a.choiceCol ∉ [a.obsIdCol, mixCol])
    {vars : List String} (hvars : a.mixingVars = some vars) (hne : vars ≠ [])
    {s : List (String × SpecVal ℝ)} (hspec : a.specification = encodeAll s)
    (hvar : ∀ v ∈ s.map Prod.fst, v ∉ [a.obsIdCol, mixCol])
    (hkeys : (s.map Prod.fst).Nodup) (hnm : ∀ ns, a.names = some ns → (ns.map Prod.fst).Nodup)
    (hasc : (df.colList a.obsIdCol).Pairwise (· ≤ ·)) (hasc' : (df'.colList a.obsIdCol).Pairwise (· ≤ ·))
    {alts : List ℝ} (ha : AltsOf df a.altIdCol alts) (hrows : 0 < df.numRows)
    (hy : ∀ r, df.val a.choiceCol r = 0 ∨ df.val a.choiceCol r = 1)
    {d : ℕ} (hd : 0 < d) {seed : Option IntArg} {st s₀ : g.State}
    (hseed : seed = none ∧ s₀ = st ∨ ∃ k : ℤ, 0 < k ∧ seed = some (.int k) ∧ g.seed k = .ok s₀)
    {mean : List ℝ} (hmean : mean.length = (specColumns alts s).length) (sd : Fin vars.length → ℝ)
    (ridge : Option ℝ) :
    fitMixedLogLik g m' (.int d) seed ridge (mean ++ List.ofFn sd) st =
      fitMixedLogLik g m (.int d) seed ridge (mean ++ List.ofFn sd) st := by
  obtain ⟨pos, -, hpl, hpv⟩ := model_mixing_positions hm hvars
  have hlt : ∀ j : Fin vars.length, j.val < pos.length := fun j => hpl.symm ▸ j.isLt
  have hname : ∀ j : Fin vars.length, m.indVarNames[(fun j : Fin vars.length => pos[j.val]'(hlt j)) j]? =
      some (.str vars[j]) ∧ ∀ i < (fun j : Fin vars.length => pos[j.val]'(hlt j)) j,
        m.indVarNames[i]? ≠ some (.str vars[j]) := fun j => hpv j.val j.isLt (hlt j)
  have hrefl : SameData [a.obsIdCol, mixCol] (fun _ => id) df df :=
    ⟨rfl, fun _ => Function.injective_id, fun _ _ => rfl, Equiv.refl _, fun _ _ _ => rfl⟩
  rw [mixed_fit_deals_draws g hm hm' hmix hcol hdata halt hchoice hvars hne hspec hvar hkeys hnm hasc' ha hrows hy
      hname hd hseed hmean sd ridge,
    mixed_fit_deals_draws g hm hm hmix hcol hrefl halt hchoice hvars hne hspec hvar hkeys hnm hasc ha hrows hy
      hname hd hseed hmean sd ridge]
  simp only [personDraw_map g (hdata.2.1 mixCol) horder, id]

/-- People in order of first appearance are in order of their observation numbers. -/
private lemma people_ordered {df : Frame ℝ} {obsCol mixCol : String}
    (hasc : (df.colList obsCol).Pairwise (· ≤ ·)) (hone : OnePerson df obsCol mixCol) :
    (firstAppearance (df.colList mixCol)).Pairwise fun x y =>
      ∃ r, df.val mixCol r = x ∧ ∀ s, df.val mixCol s = y → df.val obsCol r < df.val obsCol s := by
  refine (firstAppearance_pairwise _).imp_of_mem fun {x y} hx _ hlt => ?_
  rw [mem_firstAppearance] at hx
  have hl : (df.colList mixCol).idxOf x < df.numRows := by
    have := List.idxOf_lt_length_iff.2 hx
    simpa [Frame.colList] using this
  have hr : df.val mixCol ⟨_, hl⟩ = x := by
    have h1 : (df.colList mixCol)[(df.colList mixCol).idxOf x]? = some x := getElem?_idxOf hx
    rw [show (df.colList mixCol)[(df.colList mixCol).idxOf x]? = some (df.val mixCol ⟨_, hl⟩) by
      have := fun i (hi : i < df.numRows) => show (df.colList mixCol)[i]? = some (df.val mixCol ⟨i, hi⟩) by
        simp [Frame.colList, hi]
      exact this _ hl] at h1
    exact Option.some.inj h1
  refine ⟨⟨_, hl⟩, hr, fun s hs => ?_⟩
  · have hs' : (df.colList mixCol).idxOf y ≤ s.val := by
      have hm : (df.colList mixCol)[s.val]? = some y := by simp [Frame.colList, hs]
      obtain ⟨hm1, hm2⟩ := List.getElem?_eq_some_iff.1 hm
      by_contra hc
      push Not at hc
      have := List.not_of_lt_findIdx (show s.val < (df.colList mixCol).findIdx (· == y) from hc)
      simp [hm2] at this
    rw [Frame.colList, List.pairwise_ofFn] at hasc
    refine lt_of_le_of_ne (hasc (show (⟨_, hl⟩ : Fin df.numRows) < s from Fin.lt_def.2 (lt_of_lt_of_le hlt hs'))) fun e => ?_
    have := hone _ _ e
    rw [hr, hs] at this
    subst this
    exact lt_irrefl _ hlt

/-- **C108** (mixed logit, row order). Where no observation has rows of two people and the ids are kept, the order of the
rows does not matter: the fits on both tables maximise the same function. -/
theorem mixed_fit_ignores_row_order (g : Rng) {env : Env ℝ} {df df' : Frame ℝ} {a : ModelArgs ℝ}
    {m m' : ChoiceModel ℝ} (hm : createChoiceModel env "Mixed Logit" df a = .ok m)
    (hm' : createChoiceModel env "Mixed Logit" df' a = .ok m')
    {mixCol : String} (hmix : a.mixingIdCol = some mixCol) (hcol : mixCol ∈ df.columns)
    (hdata : SameData [a.obsIdCol, mixCol] (fun _ => id) df df') (hone : OnePerson df a.obsIdCol mixCol)
    (halt : a.altIdCol ∉ [a.obsIdCol, mixCol]) (hchoice : a.choiceCol ∉ [a.obsIdCol, mixCol])
    {vars : List String} (hvars : a.mixingVars = some vars) (hne : vars ≠ [])
    {s : List (String × SpecVal ℝ)} (hspec : a.specification = encodeAll s)
    (hvar : ∀ v ∈ s.map Prod.fst, v ∉ [a.obsIdCol, mixCol])
    (hkeys : (s.map Prod.fst).Nodup) (hnm : ∀ ns, a.names = some ns → (ns.map Prod.fst).Nodup)
    (hasc : (df.colList a.obsIdCol).Pairwise (· ≤ ·)) (hasc' : (df'.colList a.obsIdCol).Pairwise (· ≤ ·))
    {alts : List ℝ} (ha : AltsOf df a.altIdCol alts) (hrows : 0 < df.numRows)
    (hy : ∀ r, df.val a.choiceCol r = 0 ∨ df.val a.choiceCol r = 1)
    {d : ℕ} (hd : 0 < d) {seed : Option IntArg} {st s₀ : g.State}
    (hseed : seed = none ∧ s₀ = st ∨ ∃ k : ℤ, 0 < k ∧ seed = some (.int k) ∧ g.seed k = .ok s₀)
    {mean : List ℝ} (hmean : mean.length = (specColumns alts s).length) (sd : Fin vars.length → ℝ)
    (ridge : Option ℝ) :
    fitMixedLogLik g m' (.int d) seed ridge (mean ++ List.ofFn sd) st =
      fitMixedLogLik g m (.int d) seed ridge (mean ++ List.ofFn sd) st := by
  refine mixed_fit_ignores_row_order_partial g hm hm' hmix hcol hdata ?_ halt hchoice hvars hne hspec hvar hkeys hnm
    hasc hasc' ha hrows hy hd hseed hmean sd ridge
  obtain ⟨-, c1, c2, c3⟩ := built_cols hm
  obtain ⟨hc, -, -, σ, hσ⟩ := hdata
  have h1 : ∀ r, df'.val mixCol r = df.val mixCol (σ r) := fun r => hσ _ hcol r
  have h2 : ∀ r, df'.val a.obsIdCol r = df.val a.obsIdCol (σ r) := fun r => hσ _ c2 r
  have hone' : OnePerson df' a.obsIdCol mixCol := fun r s h => by
    rw [h1, h1]
    rw [h2, h2] at h
    exact hone _ _ h
  have hmap : (firstAppearance (df.colList mixCol)).map ((fun _ => id : String → ℝ → ℝ) mixCol) =
      firstAppearance (df.colList mixCol) := List.map_id _
  rw [hmap]
  refine ((List.perm_ext_iff_of_nodup (nodup_firstAppearance _) (nodup_firstAppearance _)).2 fun x => ?_).eq_of_pairwise
    (fun x y _ _ hxy hyx => ?_) (people_ordered hasc' hone') ((people_ordered hasc hone).imp fun {x y} hxy => ?_)
  · rw [mem_firstAppearance, mem_firstAppearance, mem_colList, mem_colList]
    constructor
    · rintro ⟨r, rfl⟩
      exact ⟨σ r, (h1 r).symm⟩
    · rintro ⟨r, rfl⟩
      exact ⟨σ.symm r, by rw [h1]; simp⟩
  · obtain ⟨r, hr, hr'⟩ := hxy
    obtain ⟨t, ht, ht'⟩ := hyx
    exact absurd (hr' t ht) (lt_asymm (ht' r hr))
  · obtain ⟨r, hr, hr'⟩ := hxy
    refine ⟨σ.symm r, by rw [h1]; simpa using hr, fun t ht => ?_⟩
    rw [h2, h2]
    simpa using hr' (σ t) (by rw [← h1]; exact ht)

/-! ## Concrete tables -/

/-- Two people with one observation each: person 1 chooses the alternative with `x = 1`, person 2 the other. -/
def exPeople : Frame ℝ where
  columns := ["obs", "alt", "choice", "person", "x"]
  numRows := 4
  val := fun c =>
    if c = "obs" then ![1, 1, 2, 2]
    else if c = "alt" then ![1, 2, 1, 2]
    else if c = "choice" then ![1, 0, 0, 1]
    else if c = "person" then ![1, 1, 2, 2]
    else ![1, 0, 1, 0]

/-- The same data, person 2 first; the observations are renumbered. -/
def exPeopleSwapped : Frame ℝ where
  columns := ["obs", "alt", "choice", "person", "x"]
  numRows := 4
  val := fun c =>
    if c = "obs" then ![1, 1, 2, 2]
    else if c = "alt" then ![1, 2, 1, 2]
    else if c = "choice" then ![0, 1, 1, 0]
    else if c = "person" then ![2, 2, 1, 1]
    else ![1, 0, 1, 0]

/-- The same data and numbers, rows within the observations in another order. -/
def exPeopleRows : Frame ℝ where
  columns := ["obs", "alt", "choice", "person", "x"]
  numRows := 4
  val := fun c =>
    if c = "obs" then ![1, 1, 2, 2]
    else if c = "alt" then ![2, 1, 2, 1]
    else if c = "choice" then ![0, 1, 1, 0]
    else if c = "person" then ![1, 1, 2, 2]
    else ![0, 1, 0, 1]

/-- A model with one variable, whose coefficient varies between people. -/
def exPeopleArgs : ModelArgs ℝ :=
  { altIdCol := "alt", obsIdCol := "obs", choiceCol := "choice"
    specification := encodeAll [("x", SpecVal.allSame)]
    names := none, interceptRefPos := .none, shapeRefPos := .none, interceptNames := none
    shapeNames := none, nestSpec := none, mixingIdCol := some "person", mixingVars := some ["x"] }

theorem exPeople_model (env : Env ℝ) (henv : env.badCol = fun _ => false) {L : Frame ℝ}
    (hcol : L.columns = ["obs", "alt", "choice", "person", "x"]) (hal : AltsOf L "alt" [1, 2]) :
    ∃ m, createChoiceModel env "Mixed Logit" L exPeopleArgs = .ok m ∧ m.args = exPeopleArgs ∧ m.data = L ∧
      m.indVarNames = [.str "x"] := by
  have hL : addIntercept exPeopleArgs.specification L = L := by simp [addIntercept, exPeopleArgs, encodeAll]
  have hd := design_success env.fmt env.fmtList L [("x", SpecVal.allSame)] "alt" [1, 2] hal
    (by simp [hcol]) (by simp [hcol]) (by simp [SpecVal.ValidFor]) (by simp [SpecVal.columns])
  have hk : modelTypeToClass.lookup "Mixed Logit" = some .mixed := by decide
  have hargs : argsFor .mixed exPeopleArgs = exPeopleArgs := rfl
  obtain ⟨D, hD, hD2⟩ : ∃ D, createDesignMatrix env.fmt env.fmtList (addIntercept exPeopleArgs.specification L)
      exPeopleArgs.specification "alt" none = .ok D ∧ D.2 = [.str "x"] := by
    rw [hL]
    exact ⟨_, hd, rfl⟩
  refine ⟨⟨.mixed, displayNameOf (classOf .mixed), addIntercept exPeopleArgs.specification L, D.1, D.2, exPeopleArgs,
    some [D.2.findIdx (PyVal.eqStr "x")]⟩, ?_, rfl, hL, hD2⟩
  simp only [createChoiceModel, hk]
  rw [classInit_iff, hargs]
  refine ⟨by simp [exPeopleArgs], baseInit_ok.2 ⟨initChecks_ok.2 ?_, ?_⟩⟩
  · simp [exPeopleArgs, hcol, checkNamesAndRef, checkNestSpecArg]
  · rw [initBuild_iff]
    refine ⟨?_, ?_, D, hD, ?_, rfl⟩
    · rw [hL, hcol]
      simp [exPeopleArgs, encodeAll]
    · simp [henv]
    · simp [exPeopleArgs, hD2]

private lemma ex_alts {L : Frame ℝ} (h : L = exPeople ∨ L = exPeopleSwapped ∨ L = exPeopleRows) :
    L.columns = ["obs", "alt", "choice", "person", "x"] ∧ AltsOf L "alt" [1, 2] ∧
      (L.colList "obs").Pairwise (· ≤ ·) ∧ 0 < L.numRows ∧
      ∀ r, L.val "choice" r = 0 ∨ L.val "choice" r = 1 := by
  have hasc : (List.ofFn (![1, 1, 2, 2] : Fin 4 → ℝ)).Pairwise (· ≤ ·) := by norm_num [List.ofFn_succ]
  have halt : ∀ v : Fin 4 → ℝ, v = ![1, 2, 1, 2] ∨ v = ![2, 1, 2, 1] → ∀ a, a ∈ [(1 : ℝ), 2] ↔ ∃ r, v r = a := by
    rintro v (rfl | rfl) a
    all_goals
      simp only [List.mem_cons, List.not_mem_nil, or_false]
      constructor
    · rintro (rfl | rfl)
      · exact ⟨0, rfl⟩
      · exact ⟨1, rfl⟩
    · rintro ⟨r, rfl⟩
      fin_cases r <;> simp
    · rintro (rfl | rfl)
      · exact ⟨1, rfl⟩
      · exact ⟨0, rfl⟩
    · rintro ⟨r, rfl⟩
      fin_cases r <;> simp
  have hch : ∀ v : Fin 4 → ℝ, v = ![1, 0, 0, 1] ∨ v = ![0, 1, 1, 0] → ∀ r, v r = 0 ∨ v r = 1 := by
    rintro v (rfl | rfl) r <;> fin_cases r <;> simp
  rcases h with rfl | rfl | rfl
  · exact ⟨rfl, ⟨by norm_num, halt _ (.inl rfl)⟩, hasc, by decide, hch _ (.inl rfl)⟩
  · exact ⟨rfl, ⟨by norm_num, halt _ (.inl rfl)⟩, hasc, by decide, hch _ (.inr rfl)⟩
  · exact ⟨rfl, ⟨by norm_num, halt _ (.inr rfl)⟩, hasc, by decide, hch _ (.inr rfl)⟩

/-- The new numbers of the observations in `exPeopleSwapped`. -/
def exRenumber (c : String) (x : ℝ) : ℝ := if c = "obs" then 3 - x else x

private lemma ex_swapped : SameData ["obs", "person"] exRenumber exPeople exPeopleSwapped := by
  refine ⟨rfl, fun c x y h => ?_, fun c hc => ?_, (Equiv.addRight (2 : Fin 4) : Fin 4 ≃ Fin 4), fun c hc r => ?_⟩
  · unfold exRenumber at h
    split_ifs at h <;> linarith
  · funext x
    have : c ≠ "obs" := fun e => hc (by simp [e])
    simp [exRenumber, this]
  · change Fin 4 at r
    simp only [exPeople, List.mem_cons, List.not_mem_nil, or_false] at hc
    have hid : ∀ c, c ≠ "obs" → exRenumber c = id := fun c h => by funext x; simp [exRenumber, h]
    have hobs : exRenumber "obs" = fun x => 3 - x := by funext x; simp [exRenumber]
    rcases hc with rfl | rfl | rfl | rfl | rfl
    · rw [hobs]
      fin_cases r
      · change (1 : ℝ) = 3 - 2; norm_num
      · change (1 : ℝ) = 3 - 2; norm_num
      · change (2 : ℝ) = 3 - 1; norm_num
      · change (2 : ℝ) = 3 - 1; norm_num
    all_goals
      rw [hid _ (by decide)]
      fin_cases r <;> rfl

private lemma ex_rows : SameData ["obs", "person"] (fun _ => id) exPeople exPeopleRows := by
  refine ⟨rfl, fun c => Function.injective_id, fun c hc => rfl,
    ((Equiv.swap 0 1).trans (Equiv.swap 2 3) : Fin 4 ≃ Fin 4), fun c hc r => ?_⟩
  change Fin 4 at r
  simp only [exPeople, List.mem_cons, List.not_mem_nil, or_false] at hc
  rcases hc with rfl | rfl | rfl | rfl | rfl <;> fin_cases r <;> rfl

private lemma ex_name {m : ChoiceModel ℝ} (h : m.indVarNames = [.str "x"]) :
    ∀ j : Fin ["x"].length, m.indVarNames[(fun _ => 0 : Fin ["x"].length → ℕ) j]? = some (.str ["x"][j]) ∧
      ∀ i < (fun _ => 0 : Fin ["x"].length → ℕ) j, m.indVarNames[i]? ≠ some (.str ["x"][j]) := by
  intro j
  have hj : j = 0 := Subsingleton.elim (α := Fin 1) j 0
  subst hj
  simp [h]

private lemma ex_utility {L : Frame ℝ} (z : ℝ → ℝ) (r : Fin L.numRows) :
    mixedUtility L "alt" "person" (specColumns [1, 2] [("x", SpecVal.allSame)]) [0] (fun _ : Fin ["x"].length => 1)
      (fun _ => 0) (fun _ who => z who) r = L.val "x" r * z (L.val "person" r) := by
  simp [mixedUtility, rowIndex, personCoefs, specColumns, SpecVal.columns, ColDesc.value]

private lemma ex_draw {people : List ℝ} (x y : ℝ) (hxy : x ≠ y) (h : people = [x, y]) (t : Fin 1) :
    personDraw countingRng people 1 (1 : ℕ) 0 x t = 1 ∧ personDraw countingRng people 1 (1 : ℕ) 0 y t = 2 := by
  subst h
  constructor
  · unfold personDraw
    rw [dif_pos (by simp)]
    simp [normalStream, countingRng]
  · unfold personDraw
    rw [dif_pos (by simp [hxy, List.idxOf_cons])]
    simp [normalStream, countingRng, hxy, List.idxOf_cons]
    norm_num

/-- The fit at mean 0 and standard deviation 1 with one draw and seed 1, for a table that first mentions `x` and then
`y`. -/
private lemma ex_value (env : Env ℝ) (henv : env.badCol = fun _ => false) {L : Frame ℝ} (st : ℕ)
    (hL : L = exPeople ∨ L = exPeopleSwapped ∨ L = exPeopleRows) {x y : ℝ} (hxy : x ≠ y)
    (hp : firstAppearance (L.colList "person") = [x, y]) :
    ∃ m, createChoiceModel env "Mixed Logit" L exPeopleArgs = .ok m ∧
      fitMixedLogLik countingRng m (.int 1) (some (.int 1)) none [0, 1] st =
        .ok (Real.log (∏ r with L.val "person" r = x ∧ L.val "choice" r = 1,
            clippedLogit (L.val "obs") (fun r => L.val "x" r * if L.val "person" r = x then 1 else 2) r) +
          Real.log (∏ r with L.val "person" r = y ∧ L.val "choice" r = 1,
            clippedLogit (L.val "obs") (fun r => L.val "x" r * if L.val "person" r = x then 1 else 2) r)) := by
  obtain ⟨q1, q2, q3, q4, q5⟩ := ex_alts hL
  obtain ⟨m, hm, ha, hd, hn⟩ := exPeople_model env henv q1 q2
  refine ⟨m, hm, ?_⟩
  have key := mixed_fit_maximises_table_logLik countingRng hm rfl (by rw [hd]; simp [q1]) (vars := ["x"]) rfl
      (by simp) (s := [("x", .allSame)]) (by rw [ha]; rfl) (by simp) (by rw [ha]; simp [exPeopleArgs])
      (alts := [1, 2]) (by rw [ha, hd]; exact q2) (by rw [hd]; exact q4) (by rw [ha, hd]; exact q5)
      (ex_name hn) (d := 1) one_pos (seed := some (.int 1)) (st := st) (s₀ := (1 : ℕ))
      (.inr ⟨1, one_pos, rfl, by simp [countingRng]⟩) (mean := [0]) rfl (fun _ => 1) none
  rw [ha, hd] at key
  have hc : (L.colList exPeopleArgs.obsIdCol).Pairwise (· ≤ ·) := q3
  rw [if_pos hc] at key
  refine key.trans (congrArg Except.ok ?_)
  rw [show ([0] ++ List.ofFn fun _ : Fin ["x"].length => (1 : ℝ)) = [0, 1] from rfl, Option.getD_none, zero_mul, sub_zero,
    hp]
  have hu : ∀ t : Fin 1, (mixedUtility L exPeopleArgs.altIdCol "person" (specColumns [1, 2] [("x", SpecVal.allSame)]) [0]
      (fun _ : Fin ["x"].length => 1) (fun _ => 0) fun j who => personDraw countingRng [x, y] 1 (1 : ℕ) j who t) =
      fun r => L.val "x" r * if L.val "person" r = x then 1 else 2 := by
    intro t
    have hj : (fun (j : Fin ["x"].length) who => personDraw countingRng [x, y] 1 (1 : ℕ) j who t) =
        fun _ who => personDraw countingRng [x, y] 1 (1 : ℕ) 0 who t := by
      funext j who
      have hj : j = 0 := Subsingleton.elim (α := Fin 1) j 0
      rw [hj]
      rfl
    rw [hj]
    funext r
    refine (ex_utility _ r).trans ?_
    congr 1
    obtain ⟨h1, h2⟩ := ex_draw x y hxy rfl t
    split_ifs with h
    · rw [h, h1]
    · have : L.val "person" r ∈ [x, y] := by
        rw [← hp, mem_firstAppearance, mem_colList]
        exact ⟨r, rfl⟩
      simp only [List.mem_cons, List.not_mem_nil, or_false] at this
      rw [this.resolve_left h, h2]
  unfold tableSimLogLik
  simp only [hu, List.map_cons, List.map_nil, List.sum_cons, List.sum_nil, add_zero, average, Finset.univ_unique,
    Finset.sum_const, Finset.card_singleton, one_smul, Fintype.card_unique, Nat.cast_one, inv_one, one_mul]
  rfl

/-- **C108** (mixed logit, negation). Two tables hold the same data: the second mentions person 2 before person 1, and
its observations are renumbered to be in ascending order.  With the same seed, the same parameters (mean 0, standard
deviation 1) have different log-likelihoods in the two fits, so the fits do not maximise the same function. -/
theorem mixed_fit_depends_on_order (env : Env ℝ) (henv : env.badCol = fun _ => false) (st st' : ℕ) :
    ∃ m m', createChoiceModel env "Mixed Logit" exPeople exPeopleArgs = .ok m ∧
      createChoiceModel env "Mixed Logit" exPeopleSwapped exPeopleArgs = .ok m' ∧
      SameData ["obs", "person"] exRenumber exPeople exPeopleSwapped ∧
      fitMixedLogLik countingRng m (.int 1) (some (.int 1)) none [0, 1] st =
        .ok (1 - Real.log (Real.exp 1 + 1) - Real.log (Real.exp 2 + 1)) ∧
      fitMixedLogLik countingRng m' (.int 1) (some (.int 1)) none [0, 1] st' =
        .ok (2 - Real.log (Real.exp 1 + 1) - Real.log (Real.exp 2 + 1)) := by
  have hp : firstAppearance (exPeople.colList "person") = [1, 2] := by
    simp [Frame.colList, exPeople, List.ofFn_succ, firstAppearance]
  have hp' : firstAppearance (exPeopleSwapped.colList "person") = [2, 1] := by
    simp [Frame.colList, exPeopleSwapped, List.ofFn_succ, firstAppearance]
  obtain ⟨m, hm, h⟩ := ex_value env henv st (.inl rfl) (by norm_num) hp
  obtain ⟨m', hm', h'⟩ := ex_value env henv st' (.inr (.inl rfl)) (by norm_num) hp'
  refine ⟨m, m', hm, hm', ex_swapped, ?_, ?_⟩
  · rw [h]
    refine congrArg Except.ok ?_
    change Real.log (∏ r : Fin 4 with (![1, 1, 2, 2] : Fin 4 → ℝ) r = 1 ∧ (![1, 0, 0, 1] : Fin 4 → ℝ) r = 1,
        clippedLogit (![1, 1, 2, 2] : Fin 4 → ℝ) (fun r => (![1, 0, 1, 0] : Fin 4 → ℝ) r *
          if (![1, 1, 2, 2] : Fin 4 → ℝ) r = 1 then 1 else 2) r) +
      Real.log (∏ r : Fin 4 with (![1, 1, 2, 2] : Fin 4 → ℝ) r = 2 ∧ (![1, 0, 0, 1] : Fin 4 → ℝ) r = 1,
        clippedLogit (![1, 1, 2, 2] : Fin 4 → ℝ) (fun r => (![1, 0, 1, 0] : Fin 4 → ℝ) r *
          if (![1, 1, 2, 2] : Fin 4 → ℝ) r = 1 then 1 else 2) r) = _
    rw [Finset.prod_filter, Finset.prod_filter]
    simp [clippedLogit, logitProb, rowsOf, Finset.sum_filter, Fin.sum_univ_four, Fin.prod_univ_four]
    norm_num [clip700]
    have h1 := Real.exp_pos 1
    have h2 := Real.exp_pos 2
    rw [Real.log_div (by positivity) (by positivity), Real.log_exp]
    ring
  · rw [h']
    refine congrArg Except.ok ?_
    change Real.log (∏ r : Fin 4 with (![2, 2, 1, 1] : Fin 4 → ℝ) r = 2 ∧ (![0, 1, 1, 0] : Fin 4 → ℝ) r = 1,
        clippedLogit (![1, 1, 2, 2] : Fin 4 → ℝ) (fun r => (![1, 0, 1, 0] : Fin 4 → ℝ) r *
          if (![2, 2, 1, 1] : Fin 4 → ℝ) r = 2 then 1 else 2) r) +
      Real.log (∏ r : Fin 4 with (![2, 2, 1, 1] : Fin 4 → ℝ) r = 1 ∧ (![0, 1, 1, 0] : Fin 4 → ℝ) r = 1,
        clippedLogit (![1, 1, 2, 2] : Fin 4 → ℝ) (fun r => (![1, 0, 1, 0] : Fin 4 → ℝ) r *
          if (![2, 2, 1, 1] : Fin 4 → ℝ) r = 2 then 1 else 2) r) = _
    rw [Finset.prod_filter, Finset.prod_filter]
    simp [clippedLogit, logitProb, rowsOf, Finset.sum_filter, Fin.sum_univ_four, Fin.prod_univ_four]
    norm_num [clip700]
    have h1 := Real.exp_pos 1
    have h2 := Real.exp_pos 2
    rw [Real.log_div (by positivity) (by positivity), Real.log_exp]
    ring

/-! ## The hypotheses can be met -/

/-- The same model without varying coefficients; `nests` are the nests of a nested logit model. -/
private def exPlainArgs (nests : Option (List (PyVal ℝ × PyVal ℝ))) : ModelArgs ℝ :=
  { exPeopleArgs with nestSpec := nests, mixingIdCol := none, mixingVars := none }

private lemma ex_logit (env : Env ℝ) (henv : env.badCol = fun _ => false) {L : Frame ℝ}
    (hL : L = exPeople ∨ L = exPeopleSwapped ∨ L = exPeopleRows) :
    ∃ m, createChoiceModel env "MNL" L (exPlainArgs none) = .ok m ∧ m.cls = .mnl := by
  obtain ⟨hcol, hal, -⟩ := ex_alts hL
  have hI : addIntercept (exPlainArgs none).specification L = L := by
    simp [addIntercept, exPlainArgs, exPeopleArgs, encodeAll]
  have hd := design_success env.fmt env.fmtList L [("x", SpecVal.allSame)] "alt" [1, 2] hal
    (by simp [hcol]) (by simp [hcol]) (by simp [SpecVal.ValidFor]) (by simp [SpecVal.columns])
  have hk : modelTypeToClass.lookup "MNL" = some .mnl := by decide
  obtain ⟨D, hD⟩ : ∃ D, createDesignMatrix env.fmt env.fmtList (addIntercept (exPlainArgs none).specification L)
      (exPlainArgs none).specification "alt" none = .ok D := by
    rw [hI]
    exact ⟨_, hd⟩
  refine ⟨⟨.mnl, displayNameOf (classOf .mnl), addIntercept (exPlainArgs none).specification L, D.1, D.2,
    exPlainArgs none, none⟩, ?_, rfl⟩
  · simp only [createChoiceModel, hk]
    rw [classInit_iff]
    refine ⟨by simp [exPlainArgs, exPeopleArgs], baseInit_ok.2 ⟨initChecks_ok.2 ?_, ?_⟩⟩
    · simp [exPlainArgs, exPeopleArgs, argsFor, hcol, checkNamesAndRef, checkNestSpecArg]
    · rw [initBuild_iff]
      refine ⟨?_, ?_, D, hD, ?_, rfl⟩
      · change ∀ c ∈ _, c ∈ (addIntercept (exPlainArgs none).specification L).columns
        rw [hI, hcol]
        simp [exPlainArgs, exPeopleArgs, encodeAll, argsFor]
      · simp [henv]
      · simp [exPlainArgs, exPeopleArgs, argsFor]

private def exNestPerAlt : List (String × List ℝ) := [("A", [1]), ("B", [2])]

private lemma ex_nested (env : Env ℝ) (henv : env.badCol = fun _ => false) (hint : env.isInt = fun _ => true)
    {L : Frame ℝ} (hL : L = exPeople ∨ L = exPeopleSwapped ∨ L = exPeopleRows) :
    ∃ m, createChoiceModel env "Nested Logit" L (exPlainArgs (some (encodeNests exNestPerAlt))) = .ok m ∧
      m.cls = .nested := by
  obtain ⟨hcol, hal, -⟩ := ex_alts hL
  have hI : addIntercept (exPlainArgs (some (encodeNests exNestPerAlt))).specification L = L := by
    simp [addIntercept, exPlainArgs, exPeopleArgs, encodeAll]
  have hd := design_success env.fmt env.fmtList L [("x", SpecVal.allSame)] "alt" [1, 2] hal
    (by simp [hcol]) (by simp [hcol]) (by simp [SpecVal.ValidFor]) (by simp [SpecVal.columns])
  have hk : modelTypeToClass.lookup "Nested Logit" = some .nested := by decide
  obtain ⟨D, hD⟩ : ∃ D, createDesignMatrix env.fmt env.fmtList (addIntercept (exPlainArgs (some (encodeNests exNestPerAlt))).specification L)
      (exPlainArgs (some (encodeNests exNestPerAlt))).specification "alt" none = .ok D := by
    rw [hI]
    exact ⟨_, hd⟩
  refine ⟨⟨.nested, displayNameOf (classOf .nested), addIntercept (exPlainArgs (some (encodeNests exNestPerAlt))).specification L, D.1, D.2,
    exPlainArgs (some (encodeNests exNestPerAlt)), none⟩, ?_, rfl⟩
  · simp only [createChoiceModel, hk]
    rw [classInit_iff]
    refine ⟨by simp [exPlainArgs, exPeopleArgs], baseInit_ok.2 ⟨initChecks_ok.2 ⟨?_, ?_, ?_, ?_⟩, ?_⟩⟩
    · simp [exPlainArgs, exPeopleArgs, argsFor, hcol]
    · simp [exPlainArgs, exPeopleArgs, checkNamesAndRef, argsFor]
    · simp [exPlainArgs, exPeopleArgs, checkNamesAndRef, argsFor]
    · rw [checkNestSpecArg_ok (mem_allIds _ _)]
      rintro l hl
      refine ⟨exNestPerAlt, (Option.some.inj hl).symm, ?_⟩
      have hids : ∀ a, a ∈ L.colList (argsFor .nested (exPlainArgs (some (encodeNests exNestPerAlt)))).altIdCol ↔ a ∈ [1, 2] :=
        fun a => mem_colList.trans (hal.mem a).symm
      refine ⟨by simp [exNestPerAlt], by simp [exNestPerAlt], by simp [hint], ?_, ?_⟩
      · intro a ha
        rw [hids] at ha
        simp only [List.mem_cons, List.not_mem_nil, or_false] at ha
        rcases ha with rfl | rfl <;> norm_num [exNestPerAlt]
      · intro n hn a ha
        rw [hids]
        simp only [exNestPerAlt, List.mem_cons, List.not_mem_nil, or_false] at hn
        rcases hn with rfl | rfl <;> simp at ha ⊢ <;> tauto
    · rw [initBuild_iff]
      refine ⟨?_, ?_, D, hD, ?_, rfl⟩
      · change ∀ c ∈ _, c ∈ (addIntercept (exPlainArgs (some (encodeNests exNestPerAlt))).specification L).columns
        rw [hI, hcol]
        simp [exPlainArgs, exPeopleArgs, encodeAll, argsFor]
      · simp [henv]
      · simp [exPlainArgs, exPeopleArgs, argsFor]

private lemma ex_swapped_obs : SameData ["obs"] exRenumber exPeople exPeopleSwapped := by
  obtain ⟨h1, h2, -, h4⟩ := ex_swapped
  refine ⟨h1, h2, fun c hc => ?_, h4⟩
  funext x
  have : c ≠ "obs" := fun e => hc (by simp [e])
  simp [exRenumber, this]

/-- A case of `fit_ignores_row_order`: another order of the rows and other observation ids. -/
example (env : Env ℝ) (henv : env.badCol = fun _ => false) (b : ℝ) :
    ∃ m m', createChoiceModel env "MNL" exPeople (exPlainArgs none) = .ok m ∧
      createChoiceModel env "MNL" exPeopleSwapped (exPlainArgs none) = .ok m' ∧
      (fitInputs m' m'.data).logLik id m'.cls m'.args.interceptRefPos m'.args.shapeRefPos ⟨[b], none, none, none⟩ =
        (fitInputs m m.data).logLik id m.cls m.args.interceptRefPos m.args.shapeRefPos ⟨[b], none, none, none⟩ := by
  obtain ⟨m, hm, hc⟩ := ex_logit env henv (.inl rfl)
  obtain ⟨m', hm', -⟩ := ex_logit env henv (.inr (.inl rfl))
  refine ⟨m, m', hm, hm', fit_ignores_row_order hm hm' (by simp [hc]) ex_swapped_obs (by decide)
    (s := [("x", SpecVal.allSame)]) rfl (by decide) (ex_alts (.inl rfl)).2.2.1 (ex_alts (.inr (.inl rfl))).2.2.1
    (ex_alts (.inl rfl)).2.1 (by simp [hc]) (q := ⟨fun _ => 0, fun _ => 0⟩)
    ⟨fun _ _ _ => rfl, by simp, by simp [hc], by simp [hc]⟩ (by simp [specColumns, SpecVal.columns])⟩

/-- A case of `nested_fit_ignores_row_order`. -/
example (env : Env ℝ) (henv : env.badCol = fun _ => false) (hint : env.isInt = fun _ => true) (l1 l2 b : ℝ) :
    ∃ m m', createChoiceModel env "Nested Logit" exPeople (exPlainArgs (some (encodeNests exNestPerAlt))) = .ok m ∧
      createChoiceModel env "Nested Logit" exPeopleSwapped (exPlainArgs (some (encodeNests exNestPerAlt))) = .ok m' ∧
      fitNestedLogLik m' exNestPerAlt [l1, l2, b] = fitNestedLogLik m exNestPerAlt [l1, l2, b] := by
  obtain ⟨m, hm, hc⟩ := ex_nested env henv hint (.inl rfl)
  obtain ⟨m', hm', -⟩ := ex_nested env henv hint (.inr (.inl rfl))
  exact ⟨m, m', hm, hm', nested_fit_ignores_row_order hm hm' hc ex_swapped_obs (by decide) rfl (by decide)
    (s := [("x", SpecVal.allSame)]) rfl (by decide) (ex_alts (.inl rfl)).2.2.1 (ex_alts (.inr (.inl rfl))).2.2.1
    (ex_alts (.inl rfl)).2.1 (by simp [specColumns, SpecVal.columns, exNestPerAlt])⟩

/-- A case of `mixed_fit_ignores_row_order`, and with it of `mixed_fit_ignores_row_order_partial`: another order of the
rows within the observations. -/
example (env : Env ℝ) (henv : env.badCol = fun _ => false) (st : ℕ) (b sd ridge : ℝ) :
    ∃ m m', createChoiceModel env "Mixed Logit" exPeople exPeopleArgs = .ok m ∧
      createChoiceModel env "Mixed Logit" exPeopleRows exPeopleArgs = .ok m' ∧
      fitMixedLogLik countingRng m' (.int (3 : ℕ)) (some (.int 7)) (some ridge) [b, sd] st =
        fitMixedLogLik countingRng m (.int (3 : ℕ)) (some (.int 7)) (some ridge) [b, sd] st := by
  obtain ⟨q1, q2, q3, q4, q5⟩ := ex_alts (.inl rfl)
  obtain ⟨q1', q2', q3', q4', q5'⟩ := ex_alts (.inr (.inr rfl))
  obtain ⟨m, hm, -⟩ := exPeople_model env henv q1 q2
  obtain ⟨m', hm', -⟩ := exPeople_model env henv q1' q2'
  refine ⟨m, m', hm, hm', mixed_fit_ignores_row_order countingRng hm hm' rfl (by simp [q1]) ex_rows ?_ (by decide)
    (by decide) (vars := ["x"]) rfl (by simp) (s := [("x", .allSame)]) rfl (by decide) (by decide)
    (by simp [exPeopleArgs]) q3 q3' q2 q4 q5 (by norm_num) (s₀ := (7 : ℕ))
    (.inr ⟨7, by norm_num, rfl, by simp [countingRng]⟩) (mean := [b]) rfl (fun _ => sd) (some ridge)⟩
  intro r s h
  change Fin 4 at r s
  change (![1, 1, 2, 2] : Fin 4 → ℝ) r = (![1, 1, 2, 2] : Fin 4 → ℝ) s at h
  exact h

/-- A case of `mixed_fit_deals_draws` and of `mixed_fit_maximises_table_logLik`: the fit on the table with person 2 first
gives person 2 the draws that the fit on the other table gives person 1. -/
example (env : Env ℝ) (henv : env.badCol = fun _ => false) (st : ℕ) (b sd : ℝ) :
    ∃ m m', createChoiceModel env "Mixed Logit" exPeople exPeopleArgs = .ok m ∧
      createChoiceModel env "Mixed Logit" exPeopleSwapped exPeopleArgs = .ok m' ∧
      fitMixedLogLik countingRng m' (.int (3 : ℕ)) none none [b, sd] st =
        .ok (tableSimLogLik m.data "obs" "person" "choice" (firstAppearance (exPeople.colList "person"))
          (fun t : Fin 3 => mixedUtility m.data "alt" "person" (specColumns [1, 2] [("x", SpecVal.allSame)]) [b]
            (fun _ : Fin ["x"].length => sd) (fun _ => 0) fun j who =>
              personDraw countingRng (firstAppearance (exPeopleSwapped.colList "person")) 3 st j
                (exRenumber "person" who) t)
          - 0 * (([b] ++ List.ofFn fun _ : Fin ["x"].length => sd).map fun x => x ^ 2).sum) := by
  obtain ⟨q1, q2, q3, q4, q5⟩ := ex_alts (.inl rfl)
  obtain ⟨q1', q2', q3', q4', q5'⟩ := ex_alts (.inr (.inl rfl))
  obtain ⟨m, hm, -, -, hn⟩ := exPeople_model env henv q1 q2
  obtain ⟨m', hm', -⟩ := exPeople_model env henv q1' q2'
  exact ⟨m, m', hm, hm', mixed_fit_deals_draws countingRng hm hm' rfl (by simp [q1]) ex_swapped (by decide) (by decide)
    (vars := ["x"]) rfl (by simp) (s := [("x", .allSame)]) rfl (by decide) (by decide) (by simp [exPeopleArgs]) q3' q2 q4
    q5 (ex_name hn) (by norm_num) (.inl ⟨rfl, rfl⟩) (mean := [b]) rfl (fun _ => sd) none⟩

end

end Pylogit
