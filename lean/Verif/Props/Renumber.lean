import Verif.Props.SpecOrder
import Verif.Spec.BootUnits
import Verif.Spec.Renumber

/-!
# C131: the numbers of the alternatives do not matter
-/

open Finset Matrix Function

namespace Pylogit

open Spec

noncomputable section

/-! ## Tables and columns -/

theorem renumbered_val {df : Frame ℝ} {c : String} {g : ℝ → ℝ} {x : String} (h : x ≠ c) :
    (renumbered df c g).val x = df.val x := by
  funext r
  simp [renumbered, h]

theorem renumbered_val_self {df : Frame ℝ} {c : String} {g : ℝ → ℝ} (r : Fin df.numRows) :
    (renumbered df c g).val c r = g (df.val c r) := by
  simp [renumbered]

theorem keys_renumber (g : ℝ → ℝ) (s : List (String × SpecVal ℝ)) :
    (encodeAll (renumberSpec g s)).map Prod.fst = s.map Prod.fst := by
  simp [encodeAll, renumberSpec, Function.comp_def]

theorem addIntercept_renumbered {g : ℝ → ℝ} {s : List (String × SpecVal ℝ)} {df : Frame ℝ} {c : String}
    (hc : c ∉ s.map Prod.fst) :
    addIntercept (encodeAll (renumberSpec g s)) (renumbered df c g) = renumbered (addIntercept (encodeAll s) df) c g := by
  have hk : (encodeAll s).map Prod.fst = s.map Prod.fst := by simp [encodeAll, Function.comp_def]
  unfold addIntercept
  rw [keys_renumber, hk]
  by_cases h : "intercept" ∈ s.map Prod.fst ∧ "intercept" ∉ df.columns
  · have hne : "intercept" ≠ c := fun e => hc (e ▸ h.1)
    rw [if_pos h, if_pos (by exact h)]
    simp only [renumbered, Frame.mk.injEq, heq_eq_eq, true_and]
    funext x r
    by_cases hx : x = "intercept"
    · subst hx
      simp [hne]
    · simp [hx]
  · rw [if_neg h, if_neg (by exact h)]

/-- The models built on the two tables. -/
structure Renumbered (g : ℝ → ℝ) (m m' : ChoiceModel ℝ) : Prop where
  cls : m'.cls = m.cls
  data : m'.data = renumbered m.data m.args.altIdCol g
  alt : m'.args.altIdCol = m.args.altIdCol
  obs : m'.args.obsIdCol = m.args.obsIdCol ∧ m.args.obsIdCol ≠ m.args.altIdCol
  choice : m'.args.choiceCol = m.args.choiceCol ∧ m.args.choiceCol ≠ m.args.altIdCol

theorem renumbered_models {g : ℝ → ℝ} {env env' : Env ℝ} {ty : String} {df : Frame ℝ} {a a' : ModelArgs ℝ}
    {m m' : ChoiceModel ℝ} {s : List (String × SpecVal ℝ)} (hspec : a.specification = encodeAll s)
    (hspec' : a'.specification = encodeAll (renumberSpec g s)) (hroles : SameRoles a a')
    (hvar : a.altIdCol ∉ s.map Prod.fst) (hm : createChoiceModel env ty df a = .ok m)
    (hm' : createChoiceModel env' ty (renumbered df a.altIdCol g) a' = .ok m') : Renumbered g m m' := by
  obtain ⟨⟨p1, p2, p3, p4, -⟩, -⟩ := built_cols hm
  obtain ⟨⟨p1', p2', p3', p4', -⟩, -⟩ := built_cols hm'
  refine ⟨?_, ?_, ?_, ?_, ?_⟩
  · have h := ((factory_type _ _ _ _).2 m hm).2.1
    rw [((factory_type _ _ _ _).2 m' hm').2.1] at h
    revert h
    cases m'.cls <;> cases m.cls <;> simp [classOf]
  · rw [← (built_own hm).2.1, ← (built_own hm').2.1, p1, p4, p4', hspec, hspec']
    exact addIntercept_renumbered hvar
  · rw [p1, p1', hroles.alt]
  · rw [p1, p2, p2']
    exact hroles.obs
  · rw [p1, p3, p3']
    exact hroles.choice

theorem alts_renumbered {g : ℝ → ℝ} (hg : Injective g) {df : Frame ℝ} {c : String} {alts alts' : List ℝ}
    (ha : AltsOf df c alts) (ha' : AltsOf (renumbered df c g) c alts') : alts'.Perm (alts.map g) := by
  have n1 : alts'.Nodup := ha'.ascending.imp fun h => h.ne
  have n2 : (alts.map g).Nodup := List.Nodup.map hg (ha.ascending.imp fun h => h.ne)
  refine (List.perm_ext_iff_of_nodup n1 n2).2 fun b => ?_
  rw [ha'.mem, List.mem_map]
  constructor
  · rintro ⟨r, rfl⟩
    exact ⟨_, (ha.mem _).2 ⟨r, rfl⟩, (renumbered_val_self (df := df) r).symm⟩
  · rintro ⟨x, hx, rfl⟩
    obtain ⟨r, rfl⟩ := (ha.mem _).1 hx
    exact ⟨r, renumbered_val_self r⟩

theorem alts_increasing {g : ℝ → ℝ} (hg : StrictMono g) {df : Frame ℝ} {c : String} {alts alts' : List ℝ}
    (ha : AltsOf df c alts) (ha' : AltsOf (renumbered df c g) c alts') : alts' = alts.map g := by
  refine (alts_renumbered hg.injective ha ha').eq_of_pairwise (le := (· < ·)) ?_ ha'.ascending ?_
  · intro x y _ _ h1 h2
    exact absurd (h1.trans h2) (lt_irrefl _)
  · exact List.pairwise_map.2 (ha.ascending.imp fun h => hg h)

theorem columns_map {g : ℝ → ℝ} (alts : List ℝ) (s : List (String × SpecVal ℝ)) :
    specColumns (alts.map g) (renumberSpec g s) = (specColumns alts s).map (ColDesc.renumber g) := by
  simp only [specColumns, renumberSpec, List.flatMap_map, List.map_flatMap]
  congr 1
  funext kv
  obtain ⟨k, v⟩ := kv
  cases v with
  | allSame => rfl
  | allDiff => simp [SpecVal.renumber, SpecVal.columns, ColDesc.renumber, Function.comp_def]
  | groups l =>
    simp only [SpecVal.renumber, SpecVal.columns, List.map_map]
    congr 1
    funext x
    cases x <;> rfl

theorem columns_perm {alts alts' : List ℝ} (h : alts'.Perm alts) (s : List (String × SpecVal ℝ)) :
    (specColumns alts' s).Perm (specColumns alts s) := by
  refine List.Perm.flatMap_left _ fun kv _ => ?_
  obtain ⟨k, v⟩ := kv
  cases v with
  | allSame => rfl
  | allDiff => exact h.map _
  | groups l => rfl

/-- **C131** (columns). When the alternatives of a table get other numbers, in the table and in the specification, the
model has the same columns, up to their order; if the new numbers are in the order of the old ones, in the same order. -/
theorem alternative_numbers_columns {g : ℝ → ℝ} (hg : Injective g) {df : Frame ℝ} {c : String} {alts alts' : List ℝ}
    (ha : AltsOf df c alts) (ha' : AltsOf (renumbered df c g) c alts') (s : List (String × SpecVal ℝ)) :
    ∃ σ, RelistsRenumbered g (specColumns alts' (renumberSpec g s)) (specColumns alts s) σ ∧
      (StrictMono g → ∀ j, (σ j : ℕ) = j) := by
  by_cases hmono : StrictMono g
  · have e : specColumns alts' (renumberSpec g s) = (specColumns alts s).map (ColDesc.renumber g) := by
      rw [alts_increasing hmono ha ha', columns_map]
    refine ⟨finCongr (by rw [e, List.length_map]), fun j => ?_, fun _ _ => rfl⟩
    have : ∀ {l l' : List (ColDesc ℝ)} (h : l' = l.map (ColDesc.renumber g)) (h' : l'.length = l.length)
        (j : Fin l'.length), l'.get j = (l.get (finCongr h' j)).renumber g := by
      intro l l' h h' j
      subst h
      simp
    exact this e _ j
  · have h : (specColumns alts' (renumberSpec g s)).Perm ((specColumns alts s).map (ColDesc.renumber g)) := by
      rw [← columns_map]
      exact columns_perm (alts_renumbered hg ha ha') _
    obtain ⟨σ, hσ⟩ := relists_of_perm h
    refine ⟨σ.trans (finCongr (List.length_map _)), fun j => ?_, fun h => absurd h hmono⟩
    rw [hσ j]
    simp

theorem value_renumbered {g : ℝ → ℝ} (hg : Injective g) {df : Frame ℝ} {c : String} {d : ColDesc ℝ}
    (hd : d.ofVariable ≠ c) (r : Fin df.numRows) :
    (d.renumber g).value (renumbered df c g) c r = d.value df c r := by
  cases d with
  | same v => exact congrFun (renumbered_val hd) r
  | alt v a =>
    have e : (renumbered df c g).val v r = df.val v r := congrFun (renumbered_val hd) r
    simp only [ColDesc.renumber, ColDesc.value, e]
    rw [renumbered_val_self]
    simp only [hg.eq_iff]
  | group v l =>
    have e : (renumbered df c g).val v r = df.val v r := congrFun (renumbered_val hd) r
    simp only [ColDesc.renumber, ColDesc.value, e]
    rw [renumbered_val_self]
    simp only [List.mem_map, hg.eq_iff, exists_eq_right]

theorem variable_of_column {alts : List ℝ} {s : List (String × SpecVal ℝ)} {d : ColDesc ℝ}
    (hd : d ∈ specColumns alts s) : d.ofVariable ∈ s.map Prod.fst := by
  obtain ⟨⟨k, v⟩, hk, h⟩ := List.mem_flatMap.1 hd
  refine List.mem_map.2 ⟨_, hk, ?_⟩
  cases v with
  | allSame => rw [List.mem_singleton.1 h]; rfl
  | allDiff => obtain ⟨x, -, rfl⟩ := List.mem_map.1 h; rfl
  | groups l => obtain ⟨x, -, rfl⟩ := List.mem_map.1 h; cases x <;> rfl

theorem rowIndex_renumbered {g : ℝ → ℝ} (hg : Injective g) {df : Frame ℝ} {c : String} {alts alts' : List ℝ}
    {s : List (String × SpecVal ℝ)} (hvar : c ∉ s.map Prod.fst)
    {σ : Fin (specColumns alts' (renumberSpec g s)).length ≃ Fin (specColumns alts s).length}
    (hσ : RelistsRenumbered g (specColumns alts' (renumberSpec g s)) (specColumns alts s) σ)
    (β : Fin (specColumns alts s).length → ℝ) (r : Fin df.numRows) :
    rowIndex (renumbered df c g) c (specColumns alts' (renumberSpec g s)) (List.ofFn (β ∘ σ)) r =
      rowIndex df c (specColumns alts s) (List.ofFn β) r := by
  have e1 := congrFun (described_dot (df := renumbered df c g) (altCol := c)
    (cols := specColumns alts' (renumberSpec g s)) rfl (β ∘ σ)) r
  have e2 := congrFun (described_dot (df := df) (altCol := c) (cols := specColumns alts s) rfl β) r
  rw [← e1, ← e2]
  simp only [mulVec, dotProduct, describedMatrix, Matrix.of_apply]
  rw [← σ.sum_comp]
  refine Finset.sum_congr rfl fun j _ => ?_
  have h1 := hσ j
  have h2 : (specColumns alts s).get (σ j) ∈ specColumns alts s := List.get_mem _ _
  have h3 := value_renumbered hg (df := df) (c := c) (fun e => hvar (e ▸ variable_of_column h2)) r
  rw [← h1] at h3
  simp only [List.get_eq_getElem] at h3
  change (Option.map (fun d => ColDesc.value (renumbered df c g) c d r)
    (specColumns alts' (renumberSpec g s))[(j : ℕ)]?).getD 0 * β (σ j) = _
  rw [List.getElem?_eq_getElem j.isLt, List.getElem?_eq_getElem (σ j).isLt]
  simp only [Option.map_some, Option.getD_some]
  exact congrArg (· * β (σ j)) h3

/-! ## C131: logit-type models -/

theorem rowUtility_renumbered {g : ℝ → ℝ} {alts alts' : List ℝ} (hp : alts'.Perm (alts.map g)) {q q' : AltParams}
    (hq : SameAltParams g alts q q') (cls : ModelType) {x : ℝ} (hx : x ∈ alts) (v : ℝ) :
    rowUtility cls alts' q' (g x) v = rowUtility cls alts q x v := by
  have hsum : (alts'.map fun b => Real.exp (q'.shape b)).sum = (alts.map fun b => Real.exp (q.shape b)).sum := by
    rw [(hp.map _).sum_eq, List.map_map]
    congr 1
    refine List.map_congr_left fun b hb => ?_
    simp only [Function.comp_apply, (hq b hb).2]
  have hl : alts'.length = alts.length := by rw [hp.length_eq, List.length_map]
  cases cls <;> simp only [rowUtility, (hq x hx).1, (hq x hx).2, hsum, hl]

/-- **C131** (logit-type models). The numbers of the alternatives are only labels. Let the alternatives of a table get
other numbers, in the table and in the specification, and models be built on both tables. Then the fits maximise the same
function, if each coefficient stays with its column, and each shape and intercept with its alternative: whatever order the
new numbers put the alternatives in, and whatever the reference alternatives are. -/
theorem fit_ignores_alternative_numbers {g : ℝ → ℝ} (hg : Injective g) {env env' : Env ℝ} {ty : String} {df : Frame ℝ}
    {a a' : ModelArgs ℝ} {m m' : ChoiceModel ℝ} {s : List (String × SpecVal ℝ)} (hspec : a.specification = encodeAll s)
    (hspec' : a'.specification = encodeAll (renumberSpec g s)) (hroles : SameRoles a a')
    (hvar : a.altIdCol ∉ s.map Prod.fst) (hm : createChoiceModel env ty df a = .ok m)
    (hm' : createChoiceModel env' ty (renumbered df a.altIdCol g) a' = .ok m')
    (hcls : m.cls ≠ .nested ∧ m.cls ≠ .mixed) {alts alts' : List ℝ} (ha : AltsOf m.data m.args.altIdCol alts)
    (ha' : AltsOf m'.data m'.args.altIdCol alts') (hasym : m.cls = .asym → 2 ≤ alts.length)
    {σ : Fin (specColumns alts' (renumberSpec g s)).length ≃ Fin (specColumns alts s).length}
    (hσ : RelistsRenumbered g (specColumns alts' (renumberSpec g s)) (specColumns alts s) σ)
    {p p' : ParamArrays} {q q' : AltParams} (hq : SameAltParams g alts q q')
    (hp : HoldsFor m.cls alts m.args.interceptRefPos m.args.shapeRefPos p q)
    (hp' : HoldsFor m'.cls alts' m'.args.interceptRefPos m'.args.shapeRefPos p' q')
    {β : Fin (specColumns alts s).length → ℝ} (hβ : p.index = List.ofFn β) (hβ' : p'.index = List.ofFn (β ∘ σ)) :
    (fitInputs m' m'.data).logLik id m'.cls m'.args.interceptRefPos m'.args.shapeRefPos p' =
      (fitInputs m m.data).logLik id m.cls m.args.interceptRefPos m.args.shapeRefPos p := by
  have R := renumbered_models hspec hspec' hroles hvar hm hm'
  have hc : m'.cls = m.cls := R.cls
  have q1 : m.args.specification = encodeAll s := (built_cols hm).1.2.2.2.1.trans hspec
  have q2 : m'.args.specification = encodeAll (renumberSpec g s) := (built_cols hm').1.2.2.2.1.trans hspec'
  have hvar' : m.args.altIdCol ∉ s.map Prod.fst := by rw [(built_cols hm).1.1]; exact hvar
  have hperm : alts'.Perm (alts.map g) := by
    rw [R.data, R.alt] at ha'
    exact alts_renumbered hg ha ha'
  rw [fit_maximises_table_logLik hm hcls q1 ha hasym hp (by rw [hβ, List.length_ofFn]),
    fit_maximises_table_logLik hm' (by rw [hc]; exact hcls) q2 ha'
      (by rw [hc, hperm.length_eq, List.length_map]; exact hasym) hp' (by rw [hβ', List.length_ofFn])]
  clear hp' ha' q2 hm'
  obtain ⟨c, nm, dt, ds, ns, ar, ms⟩ := m'
  obtain ⟨-, r1, r2, ⟨r3, r4⟩, r5, r6⟩ := R
  dsimp only at r1 r2 r3 r5 hc ⊢
  subst r1 hc
  rw [r2, r3, r5, hβ, hβ']
  have ho : (renumbered m.data m.args.altIdCol g).colList m.args.obsIdCol = m.data.colList m.args.obsIdCol := by
    unfold Frame.colList
    rw [renumbered_val r4]
    rfl
  rw [ho, renumbered_val r4, renumbered_val r6]
  congr 2
  refine Finset.sum_congr rfl fun r _ => ?_
  congr 3
  funext r
  have h1 := rowIndex_renumbered hg (df := m.data) hvar' hσ β r
  have h2 := renumbered_val_self (df := m.data) (c := m.args.altIdCol) (g := g) r
  have h3 := rowUtility_renumbered hperm hq m.cls (x := m.data.val m.args.altIdCol r) ((ha.mem _).2 ⟨r, rfl⟩)
    (rowIndex m.data m.args.altIdCol (specColumns alts s) (List.ofFn β) r)
  rw [← h3, ← h1, ← h2]

/-- **C131** (logit-type models, new numbers in the order of the old ones). Then even the parameter vectors are the same:
the fits maximise the same function of them. -/
theorem fit_ignores_increasing_numbers {g : ℝ → ℝ} (hg : StrictMono g) {env env' : Env ℝ} {ty : String} {df : Frame ℝ}
    {a a' : ModelArgs ℝ} {m m' : ChoiceModel ℝ} {s : List (String × SpecVal ℝ)} (hspec : a.specification = encodeAll s)
    (hspec' : a'.specification = encodeAll (renumberSpec g s)) (hroles : SameRoles a a')
    (hvar : a.altIdCol ∉ s.map Prod.fst) (hm : createChoiceModel env ty df a = .ok m)
    (hm' : createChoiceModel env' ty (renumbered df a.altIdCol g) a' = .ok m')
    (hcls : m.cls ≠ .nested ∧ m.cls ≠ .mixed) {alts : List ℝ} (ha : AltsOf m.data m.args.altIdCol alts)
    (hasym : m.cls = .asym → 2 ≤ alts.length) (hi : m'.args.interceptRefPos = m.args.interceptRefPos)
    (hs : m'.args.shapeRefPos = m.args.shapeRefPos) {p : ParamArrays} {q : AltParams}
    (hp : HoldsFor m.cls alts m.args.interceptRefPos m.args.shapeRefPos p q)
    (hlen : p.index.length = (specColumns alts s).length) :
    (fitInputs m' m'.data).logLik id m'.cls m'.args.interceptRefPos m'.args.shapeRefPos p =
      (fitInputs m m.data).logLik id m.cls m.args.interceptRefPos m.args.shapeRefPos p := by
  have R := renumbered_models hspec hspec' hroles hvar hm hm'
  have ha' : AltsOf m'.data m'.args.altIdCol (alts.map g) := by
    rw [R.data, R.alt]
    refine ⟨List.pairwise_map.2 (ha.ascending.imp fun h => hg h), fun b => ?_⟩
    rw [List.mem_map]
    constructor
    · rintro ⟨x, hx, rfl⟩
      obtain ⟨r, rfl⟩ := (ha.mem _).1 hx
      exact ⟨r, renumbered_val_self r⟩
    · rintro ⟨r, rfl⟩
      exact ⟨_, (ha.mem _).2 ⟨r, rfl⟩, (renumbered_val_self (df := m.data) r).symm⟩
  obtain ⟨σ, hσ, hid⟩ := alternative_numbers_columns hg.injective ha (by rw [R.data, R.alt] at ha'; exact ha') s
  have hinv : ∀ x, invFun g (g x) = x := leftInverse_invFun hg.injective
  have hothers : ∀ {ref : PyRef} {f : ℝ → ℝ} {x : List ℝ}, ListsOthers alts ref f x →
      ListsOthers (alts.map g) ref (f ∘ invFun g) x := by
    rintro ref f x ⟨z, h, e1, e2, e3⟩
    refine ⟨z, by rwa [List.length_map], e1, ?_, ?_⟩
    · rw [e2, List.eraseIdx_map, List.map_map]
      refine List.map_congr_left fun b _ => ?_
      simp [hinv]
    · simpa [hinv] using e3
  refine fit_ignores_alternative_numbers hg.injective hspec hspec' hroles hvar hm hm' hcls ha ha' hasym hσ
    (q := q) (q' := ⟨q.icpt ∘ invFun g, q.shape ∘ invFun g⟩) (fun x _ => by simp [hinv]) hp ?_
    (β := fun k => p.index[(k : ℕ)]'(by rw [hlen]; exact k.isLt)) ?_ ?_
  · rw [R.cls, hi, hs]
    refine ⟨fun h b hb => ?_, fun x hx => hothers (hp.icpt x hx), fun h => ?_, fun h => ?_⟩
    · obtain ⟨x, hx, rfl⟩ := List.mem_map.1 hb
      simpa [hinv] using hp.noIcpt h x hx
    · rw [hp.shape h, List.map_map]
      congr 1
      refine List.map_congr_left fun b _ => ?_
      simp [hinv]
    · obtain ⟨x, e1, e2⟩ := hp.eta h
      exact ⟨x, e1, hothers e2⟩
  · apply List.ext_getElem
    · simpa using hlen
    · intro i h1 h2
      simp
  · apply List.ext_getElem
    · have := Fintype.card_congr σ
      simp only [Fintype.card_fin] at this
      simp [hlen, this]
    · intro i h1 h2
      simp [hid hg]

/-! ## C131: nested logit -/

/-- **C131** (nested logit). With the new numbers in the nests as well, the fits maximise the same function, if each
parameter stays with its nest or column. -/
theorem nested_fit_ignores_alternative_numbers {g : ℝ → ℝ} (hg : Injective g) {env env' : Env ℝ} {ty : String}
    {df : Frame ℝ} {a a' : ModelArgs ℝ} {m m' : ChoiceModel ℝ} {s : List (String × SpecVal ℝ)}
    (hspec : a.specification = encodeAll s) (hspec' : a'.specification = encodeAll (renumberSpec g s))
    (hroles : SameRoles a a') (hvar : a.altIdCol ∉ s.map Prod.fst)
    {ns ns' : List (String × List ℝ)} (hns : a.nestSpec = some (encodeNests ns))
    (hns' : a'.nestSpec = some (encodeNests ns')) (hk : (ns.map Prod.fst).Nodup) (hk' : (ns'.map Prod.fst).Nodup)
    {π : Fin ns'.length ≃ Fin ns.length} (hπ : ∀ i, (ns'.get i).2.Perm ((ns.get (π i)).2.map g))
    (hm : createChoiceModel env ty df a = .ok m)
    (hm' : createChoiceModel env' ty (renumbered df a.altIdCol g) a' = .ok m') (hcls : m.cls = .nested)
    {alts alts' : List ℝ} (ha : AltsOf m.data m.args.altIdCol alts) (ha' : AltsOf m'.data m'.args.altIdCol alts')
    {σ : Fin (specColumns alts' (renumberSpec g s)).length ≃ Fin (specColumns alts s).length}
    (hσ : RelistsRenumbered g (specColumns alts' (renumberSpec g s)) (specColumns alts s) σ)
    (τ : Fin ns.length → ℝ) (β : Fin (specColumns alts s).length → ℝ) :
    fitNestedLogLik m' ns' (List.ofFn (τ ∘ π) ++ List.ofFn (β ∘ σ)) =
      fitNestedLogLik m ns (List.ofFn τ ++ List.ofFn β) := by
  have R := renumbered_models hspec hspec' hroles hvar hm hm'
  have q1 : m.args.specification = encodeAll s := (built_cols hm).1.2.2.2.1.trans hspec
  have q2 : m'.args.specification = encodeAll (renumberSpec g s) := (built_cols hm').1.2.2.2.1.trans hspec'
  have hvar' : m.args.altIdCol ∉ s.map Prod.fst := by rw [(built_cols hm).1.1]; exact hvar
  have hcls' : m'.cls = .nested := R.cls.trans hcls
  obtain ⟨-, n, hn, hni, -⟩ := built_nests hm hcls hns hk
  obtain ⟨-, n', hn', hni', -⟩ := built_nests hm' hcls' hns' hk'
  rw [nested_fit_maximises_table_logLik hm hcls hns hk q1 ha (by simp) hn,
    nested_fit_maximises_table_logLik hm' hcls' hns' hk' q2 ha' (by simp) hn']
  have d1 : (List.ofFn τ ++ List.ofFn β).drop ns.length = List.ofFn β := List.drop_left' (by simp)
  have d2 : (List.ofFn (τ ∘ π) ++ List.ofFn (β ∘ σ)).drop ns'.length = List.ofFn (β ∘ σ) := List.drop_left' (by simp)
  have t1 : ∀ n : Fin ns.length, (List.ofFn τ ++ List.ofFn β).getD n 0 = τ n := fun n => by
    rw [List.getD_eq_getElem?_getD, List.getElem?_append_left (by simp)]
    simp
  have t2 : ∀ n : Fin ns'.length, (List.ofFn (τ ∘ π) ++ List.ofFn (β ∘ σ)).getD n 0 = τ (π n) := fun n => by
    rw [List.getD_eq_getElem?_getD, List.getElem?_append_left (by simp)]
    simp
  simp only [d1, d2, t1, t2]
  clear ha' q2 hm' hni'
  obtain ⟨c, nm, dt, ds, nn, ar, ms⟩ := m'
  obtain ⟨-, r1, r2, ⟨r3, r4⟩, r5, r6⟩ := R
  dsimp only at r1 r2 r3 r5 n' hn' ⊢
  subst r1
  rw [r2] at hn' ⊢
  rw [r3, r5]
  have ho : (renumbered m.data m.args.altIdCol g).colList m.args.obsIdCol = m.data.colList m.args.obsIdCol := by
    unfold Frame.colList
    rw [renumbered_val r4]
    rfl
  have hnn : ∀ r, π (n' r) = n r := fun r => by
    have h1 := hn' r
    rw [renumbered_val_self (df := m.data) r] at h1
    obtain ⟨x, hx, e⟩ := List.mem_map.1 ((hπ (n' r)).mem_iff.1 h1)
    rw [hg e] at hx
    exact ((hni r (π (n' r))).2 hx).symm
  have hV : rowIndex (renumbered m.data m.args.altIdCol g) m.args.altIdCol (specColumns alts' (renumberSpec g s))
      (List.ofFn (β ∘ σ)) = rowIndex m.data m.args.altIdCol (specColumns alts s) (List.ofFn β) :=
    funext fun r => rowIndex_renumbered hg (df := m.data) hvar' hσ β r
  rw [ho, renumbered_val r4, renumbered_val r6, hV]
  have := fun r => nestedProb_relisted π (f := m.data.val m.args.obsIdCol) hnn
    (rowIndex m.data m.args.altIdCol (specColumns alts s) (List.ofFn β)) (fun n => 1 / (1 + Real.exp (-τ n))) r
  congr 2
  exact Finset.sum_congr rfl fun r _ => congrArg _ (congrArg _ (this r))

/-! ## C131: mixed logit -/

theorem tableSim_renumbered {df : Frame ℝ} {c : String} {g : ℝ → ℝ} {obs mix y : String} (h1 : obs ≠ c) (h2 : mix ≠ c)
    (h3 : y ≠ c) (people : List ℝ) {d : ℕ} (u : Fin d → Fin df.numRows → ℝ) :
    tableSimLogLik (renumbered df c g) obs mix y people u = tableSimLogLik df obs mix y people u := by
  have key : ∀ {n : ℕ} {A A' B B' C C' : Fin n → ℝ}, A' = A → B' = B → C' = C → ∀ u : Fin d → Fin n → ℝ,
      (people.map fun who => Real.log (average fun t => ∏ r with A' r = who ∧ B' r = 1, clippedLogit C' (u t) r)).sum =
        (people.map fun who => Real.log (average fun t => ∏ r with A r = who ∧ B r = 1, clippedLogit C (u t) r)).sum := by
    rintro n A A' B B' C C' rfl rfl rfl u
    rfl
  exact key (n := df.numRows) (renumbered_val h2) (renumbered_val h3) (renumbered_val h1) u

theorem mixed_logLik_of_length (g : Rng) {env : Env ℝ} {df : Frame ℝ} {a : ModelArgs ℝ}
    {m : ChoiceModel ℝ} (hm : createChoiceModel env "Mixed Logit" df a = .ok m)
    {mixCol : String} (hmix : a.mixingIdCol = some mixCol) (hcol : mixCol ∈ m.data.columns)
    {vars : List String} (hvars : a.mixingVars = some vars) (hne : vars ≠ [])
    {s : List (String × SpecVal ℝ)} (hspec : m.args.specification = encodeAll s)
    (hkeys : (s.map Prod.fst).Nodup) (hnm : ∀ ns, m.args.names = some ns → (ns.map Prod.fst).Nodup)
    {alts : List ℝ} (ha : AltsOf m.data m.args.altIdCol alts) (hrows : 0 < m.data.numRows)
    (hy : ∀ r, m.data.val m.args.choiceCol r = 0 ∨ m.data.val m.args.choiceCol r = 1)
    {k : ℕ} (hk : vars.length = k) {col : Fin k → ℕ}
    (hname : ∀ j : Fin k, m.indVarNames[col j]? = some (.str (vars.get (j.cast hk.symm))) ∧
      ∀ i < col j, m.indVarNames[i]? ≠ some (.str (vars.get (j.cast hk.symm))))
    {d : ℕ} (hd : 0 < d) {seed : Option IntArg} {st s₀ : g.State}
    (hseed : seed = none ∧ s₀ = st ∨ ∃ k : ℤ, 0 < k ∧ seed = some (.int k) ∧ g.seed k = .ok s₀)
    {mean : List ℝ} (hmean : mean.length = (specColumns alts s).length) (sd : Fin k → ℝ)
    (ridge : Option ℝ) :
    fitMixedLogLik g m (.int d) seed ridge (mean ++ List.ofFn sd) st =
      if (m.data.colList m.args.obsIdCol).Pairwise (· ≤ ·) then
        .ok (tableSimLogLik m.data m.args.obsIdCol mixCol m.args.choiceCol
            (firstAppearance (m.data.colList mixCol)) (fun t : Fin d =>
              mixedUtility m.data m.args.altIdCol mixCol (specColumns alts s) mean sd col fun j who =>
                personDraw g (firstAppearance (m.data.colList mixCol)) d s₀ j who t)
          - ridge.getD 0 * ((mean ++ List.ofFn sd).map fun x => x ^ 2).sum)
      else .error .valueError := by
  subst hk
  exact mixed_fit_maximises_table_logLik g hm hmix hcol hvars hne hspec hkeys hnm ha hrows hy hname hd hseed hmean sd
    ridge

/-- **C131** (mixed logit). With the same seed, or the same state of the generator, the fits maximise the same function,
if each mean stays with its column, and the mixing variables name corresponding columns. -/
theorem mixed_fit_ignores_alternative_numbers (G : Rng) {g : ℝ → ℝ} (hg : Injective g) {env env' : Env ℝ}
    {df : Frame ℝ} {a a' : ModelArgs ℝ} {m m' : ChoiceModel ℝ} {s : List (String × SpecVal ℝ)}
    (hspec : a.specification = encodeAll s) (hspec' : a'.specification = encodeAll (renumberSpec g s))
    (hroles : SameRoles a a') (hvar : a.altIdCol ∉ s.map Prod.fst) (hkeys : (s.map Prod.fst).Nodup)
    (hm : createChoiceModel env "Mixed Logit" df a = .ok m)
    (hm' : createChoiceModel env' "Mixed Logit" (renumbered df a.altIdCol g) a' = .ok m')
    (hnm : ∀ ns, a.names = some ns → (ns.map Prod.fst).Nodup) (hnm' : ∀ ns, a'.names = some ns → (ns.map Prod.fst).Nodup)
    {mixCol : String} (hmix : a.mixingIdCol = some mixCol) (hcol : mixCol ∈ m.data.columns)
    {k : ℕ} {vars vars' : List String} (hvars : a.mixingVars = some vars) (hvars' : a'.mixingVars = some vars')
    (hk : vars.length = k) (hk' : vars'.length = k) (hne : 0 < k)
    {alts alts' : List ℝ} (ha : AltsOf m.data m.args.altIdCol alts) (ha' : AltsOf m'.data m'.args.altIdCol alts')
    (hrows : 0 < m.data.numRows)
    (hy : ∀ r, m.data.val m.args.choiceCol r = 0 ∨ m.data.val m.args.choiceCol r = 1)
    {σ : Fin (specColumns alts' (renumberSpec g s)).length ≃ Fin (specColumns alts s).length}
    (hσ : RelistsRenumbered g (specColumns alts' (renumberSpec g s)) (specColumns alts s) σ)
    {col' : Fin k → Fin (specColumns alts' (renumberSpec g s)).length}
    (hname : ∀ j : Fin k, m.indVarNames[(σ (col' j) : ℕ)]? = some (.str (vars.get (j.cast hk.symm))) ∧
      ∀ i < (σ (col' j) : ℕ), m.indVarNames[i]? ≠ some (.str (vars.get (j.cast hk.symm))))
    (hname' : ∀ j : Fin k, m'.indVarNames[(col' j : ℕ)]? = some (.str (vars'.get (j.cast hk'.symm))) ∧
      ∀ i < (col' j : ℕ), m'.indVarNames[i]? ≠ some (.str (vars'.get (j.cast hk'.symm))))
    {d : ℕ} (hd : 0 < d) {seed : Option IntArg} {st s₀ : G.State}
    (hseed : seed = none ∧ s₀ = st ∨ ∃ z : ℤ, 0 < z ∧ seed = some (.int z) ∧ G.seed z = .ok s₀) (ridge : Option ℝ)
    (μ : Fin (specColumns alts s).length → ℝ) (sd : Fin k → ℝ) :
    fitMixedLogLik G m' (.int d) seed ridge (List.ofFn (μ ∘ σ) ++ List.ofFn sd) st =
      fitMixedLogLik G m (.int d) seed ridge (List.ofFn μ ++ List.ofFn sd) st := by
  have R := renumbered_models hspec hspec' hroles hvar hm hm'
  obtain ⟨⟨p1, -, -, q1, q3⟩, -⟩ := built_cols hm
  obtain ⟨⟨-, -, -, q2, q4⟩, -⟩ := built_cols hm'
  rw [hspec] at q1
  rw [hspec'] at q2
  have hvar' : m.args.altIdCol ∉ s.map Prod.fst := by rw [p1]; exact hvar
  have hmixne : mixCol ≠ m.args.altIdCol := by
    rw [p1]
    exact fun e => hroles.mixing.2 (e ▸ hmix)
  have hkeys' : ((renumberSpec g s).map Prod.fst).Nodup := by
    simpa [renumberSpec, Function.comp_def] using hkeys
  have hne' : ∀ {l : List String}, l.length = k → l ≠ [] := fun h e => by
    rw [e] at h
    exact hne.ne h
  rw [mixed_logLik_of_length G hm hmix hcol hvars (hne' hk) q1 hkeys (fun ns e => hnm ns (q3 ▸ e)) ha hrows hy hk
      (col := fun j => σ (col' j)) hname hd hseed (by simp) sd ridge,
    mixed_logLik_of_length G hm' (hroles.mixing.1.trans hmix) (by rw [R.data]; exact hcol) hvars' (hne' hk') q2 hkeys'
      (fun ns e => hnm' ns (q4 ▸ e)) ha' (by rw [R.data]; exact hrows)
      (by obtain ⟨c, nm, dt, ds, nn, ar, ms⟩ := m'
          obtain ⟨-, r1, r2, -, r5, r6⟩ := R
          dsimp only at r1 r5 ⊢
          subst r1
          rw [r5, renumbered_val r6]
          exact hy) hk' (col := fun j => col' j) hname' hd hseed (by simp) sd ridge]
  have hpen : ((List.ofFn (μ ∘ σ) ++ List.ofFn sd).map fun x => x ^ 2).sum =
      ((List.ofFn μ ++ List.ofFn sd).map fun x => x ^ 2).sum := by
    simp only [List.map_append, List.sum_append, List.map_ofFn, List.sum_ofFn]
    congr 1
    exact σ.sum_comp fun k => μ k ^ 2
  have hcoef : ∀ z : Fin k → ℝ, personCoefs (List.ofFn (μ ∘ σ)) sd (fun j => col' j) z =
      List.ofFn ((fun i : Fin (specColumns alts s).length => μ i + ∑ j with (σ (col' j) : ℕ) = i, sd j * z j) ∘ σ) := by
    intro z
    unfold personCoefs
    apply List.ext_getElem
    · simp
    · intro i h1 h2
      simp only [List.getElem_ofFn, Function.comp_apply, Fin.getElem_fin]
      have hi : i < (specColumns alts' (renumberSpec g s)).length := by simpa using h2
      congr 1
      refine Finset.sum_congr ?_ fun _ _ => rfl
      ext j
      simp only [Finset.mem_filter, Finset.mem_univ, true_and]
      show (col' j : ℕ) = i ↔ (σ (col' j) : ℕ) = σ ⟨i, hi⟩
      rw [← Fin.ext_iff, σ.apply_eq_iff_eq, Fin.ext_iff]
  have hcoef0 : ∀ z : Fin k → ℝ, personCoefs (List.ofFn μ) sd (fun j => (σ (col' j) : ℕ)) z =
      List.ofFn (fun i : Fin (specColumns alts s).length => μ i + ∑ j with (σ (col' j) : ℕ) = i, sd j * z j) := by
    intro z
    unfold personCoefs
    apply List.ext_getElem
    · simp
    · intro i h1 h2
      simp
  clear ha' q2 hm' hname'
  obtain ⟨c, nm, dt, ds, nn, ar, ms⟩ := m'
  obtain ⟨-, r1, r2, ⟨r3, r4⟩, r5, r6⟩ := R
  dsimp only at r1 r2 r3 r5 ⊢
  subst r1
  rw [r2, r3, r5, hpen]
  have ho : ∀ {x : String}, x ≠ m.args.altIdCol →
      (renumbered m.data m.args.altIdCol g).colList x = m.data.colList x := fun h => by
    unfold Frame.colList
    rw [renumbered_val h]
    rfl
  have hu : ∀ z : Fin k → ℝ → ℝ,
      mixedUtility (renumbered m.data m.args.altIdCol g) m.args.altIdCol mixCol (specColumns alts' (renumberSpec g s))
          (List.ofFn (μ ∘ σ)) sd (fun j => col' j) z =
        mixedUtility m.data m.args.altIdCol mixCol (specColumns alts s) (List.ofFn μ) sd (fun j => σ (col' j)) z :=
    fun z => by
      funext r
      simp only [mixedUtility]
      rw [hcoef, hcoef0, renumbered_val hmixne]
      exact rowIndex_renumbered hg (df := m.data) hvar' hσ _ r
  simp only [hu, ho r4, ho hmixne]
  rw [tableSim_renumbered r4 hmixne r6]

end

end Pylogit
