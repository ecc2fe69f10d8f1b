import Verif.Spec.WholeBoot
import Verif.Spec.WideFit
import Verif.Props.WholeFitTypes
import Verif.Props.BootstrapMle
import Verif.Props.Random

/-!
# Replicates maximise the log-likelihood of the resampled data (C113)
-/

open Finset

namespace Pylogit

open Spec

noncomputable section

/-! ## Helper lemmas: estimating one table -/

theorem point_optimised {env : Env ℝ} {ty : String} {df : Frame ℝ} {a : ModelArgs ℝ} {m : ChoiceModel ℝ}
    (hm : createChoiceModel env ty df a = .ok m) {s : List (String × SpecVal ℝ)}
    (hspec : m.args.specification = encodeAll s) {alts : List ℝ} (ids : List ℝ)
    (ha : AltsOf m.data m.args.altIdCol alts) (h2 : m.cls = .asym → 2 ≤ alts.length)
    {chosen : ℝ → Fin m.data.numRows} (hc : OneChoicePerObs m.data m.args.obsIdCol m.args.choiceCol chosen)
    {opts : PointOptions} {init y : List ℝ} (h : pointEstimate opts m init = .ok y) :
    ∃ (n : ℕ) (U : (Fin n → ℝ) → Fin m.data.numRows → ℝ) (x : Fin n → ℝ),
      DocumentedUtilities m alts (specColumns alts s) U ∧ y = List.ofFn x ∧
      OptimisedBy opts init ((tableOf m ids).logLik opts.ridge U)
        (fun θ => SmoothAt m (specColumns alts s) θ ∧ ∀ r, |U θ r| < 700) x := by
  unfold pointEstimate at h
  simp only [bind, Except.bind] at h
  split at h
  · cases h
  rename_i x hx
  split at h
  · cases h
  split at h
  · rename_i hrows
    split at h
    · cases h
    rename_i obj hobj
    split at h
    · cases h
    rename_i u' hlen
    split at h
    · cases h
    rename_i ps hps
    split at h
    · cases h
    rename_i rep hrep
    cases h
    have hxi : x = init := by
      cases hcl : m.cls <;> rw [hcl] at hx <;>
        simp [rawInitVals, initPlain, initClog, initShapesModel] at hx <;> exact hx.symm
    subst hxi
    have hpos : 0 < (fitDims m).numAlts := by
      simp only [fitDims, altsOf_eq ha]
      exact List.length_pos_of_mem ((ha.mem _).2 ⟨⟨0, hrows⟩, rfl⟩)
    have hx₃ : x.length = obj.n := ((checkInitLength_iff _ _ _ _ hpos).1.1 hlen).trans (object_n hobj).symm
    obtain ⟨U, Dom, hU, hd, hdom⟩ := logit_describes hm hspec ids ha h2 hc hrows hobj
    have hrpt := optimiser_report hps (hd.constrained ps) (hd.logLik ps) (E := fun _ _ => 0)
      (Good := fun θ => Dom θ ∧ ∀ r, |U θ r| < 700)
      (fun θ hθ => by simpa using hd.gradient ps θ hθ.1 hθ.2) hx₃ hrep
      (t := { (freshFit (fun _ => "") m).attrs with success := some rep.success, message := some rep.message })
      rfl rfl
    obtain ⟨hl, f, hh, rep', hrun, hx', -, -, -, hf, hfix, hfree⟩ := hrpt
    refine ⟨obj.n, U, rep.x, laid_documented hU, rfl, hl, f, hh, rep', hrun, hx', hf, hfix, fun θ hθ i hi => ?_⟩
    simpa using hfree θ ⟨hdom θ hθ.1, hθ.2⟩ i hi
  · cases h

/-! ## Helper lemmas: the documented utilities are determined by the cells of a row -/

private lemma listsOthers_unique {alts : List ℝ} {ref : PyRef} {q q' : ℝ → ℝ} {x : List ℝ}
    (h : ListsOthers alts ref q x) (h' : ListsOthers alts ref q' x) : ∀ a ∈ alts, q a = q' a := by
  obtain ⟨z, hz, hr, hx, h0⟩ := h
  obtain ⟨z', hz', hr', hx', h0'⟩ := h'
  have : z = z' := by
    rw [hr] at hr'
    have := PyRef.int.inj hr'
    exact_mod_cast this
  subst this
  intro a ha
  obtain ⟨i, hi, rfl⟩ := List.mem_iff_getElem.1 ha
  by_cases hiz : i = z
  · subst hiz; rw [h0, h0']
  · rw [hx] at hx'
    exact List.map_inj_left.1 hx' _ (List.mem_eraseIdx_iff_getElem.2 ⟨i, hi, hiz, rfl⟩)

private lemma listsOthers_length {alts : List ℝ} {ref : PyRef} {q : ℝ → ℝ} {x : List ℝ}
    (h : ListsOthers alts ref q x) : x.length = alts.length - 1 := by
  obtain ⟨z, hz, -, rfl, -⟩ := h
  rw [List.length_map, List.length_eraseIdx, if_pos hz]

/-- The utility of a row from its cells. -/
private def cellUtility (cls : ModelType) (alts : List ℝ) (altCol : String) (cols : List (ColDesc ℝ)) (beta : List ℝ)
    (q : AltParams) (row : String → ℝ) : ℝ :=
  rowUtility cls alts q (row altCol)
    ((cols.zip beta).map fun p => p.1.valueAt (row altCol) row * p.2).sum

theorem value_valueAt (df : Frame ℝ) (altCol : String) (d : ColDesc ℝ) (r : Fin df.numRows) :
    d.value df altCol r = d.valueAt (df.val altCol r) fun c => df.val c r := by
  cases d <;> rfl

private lemma rowUtility_congr {cls : ModelType} {alts : List ℝ} {q q' : AltParams} {a v : ℝ} (ha : a ∈ alts)
    (hi : cls ≠ .mnl → cls ≠ .nested → cls ≠ .mixed → ∀ a ∈ alts, q.icpt a = q'.icpt a)
    (hs : cls = .scobit ∨ cls = .uneven ∨ cls = .asym → ∀ a ∈ alts, q.shape a = q'.shape a) :
    rowUtility cls alts q a v = rowUtility cls alts q' a v := by
  cases cls <;> simp only [rowUtility]
  · have e : (alts.map fun b => Real.exp (q.shape b)) = alts.map fun b => Real.exp (q'.shape b) :=
      List.map_congr_left fun b hb => by rw [hs (by simp) b hb]
    rw [e, hs (by simp) a ha, hi (by simp) (by simp) (by simp) a ha]
  · rw [hi (by simp) (by simp) (by simp) a ha]
  · rw [hs (by simp) a ha, hi (by simp) (by simp) (by simp) a ha]
  · rw [hs (by simp) a ha, hi (by simp) (by simp) (by simp) a ha]

/-- Parameters as the documentation lays them out in a vector. -/
private def LaidOut (cls : ModelType) (args : ModelArgs ℝ) (alts : List ℝ) (k : ℕ) (θ : List ℝ) (p : ParamArrays)
    (q : AltParams) : Prop :=
  HoldsFor cls alts args.interceptRefPos args.shapeRefPos p q ∧
    (p.shapes = none ↔ cls = .mnl ∨ cls = .cloglog) ∧
    (p.intercepts = none ↔ cls = .mnl ∨ args.interceptRefPos = .none ∨ alts.length = 1) ∧
    p.index.length = k ∧ θ = p.shapes.getD [] ++ (p.intercepts.getD [] ++ p.index)

private lemma laidOut_shapes {cls : ModelType} {args : ModelArgs ℝ} {alts : List ℝ} {k : ℕ} {θ : List ℝ}
    {p : ParamArrays} {q : AltParams} (h : LaidOut cls args alts k θ p q) (hn : cls ≠ .nested) (hx : cls ≠ .mixed) :
    (p.shapes.getD []).length = shapeCount cls alts.length := by
  obtain ⟨h1, h2, -⟩ := h
  cases hc : cls with
  | mnl => rw [h2.2 (.inl hc)]; rfl
  | cloglog => rw [h2.2 (.inr hc)]; rfl
  | asym =>
    obtain ⟨x, hx, hl⟩ := h1.eta hc
    rw [hx, Option.getD_some, listsOthers_length hl]; rfl
  | scobit => rw [h1.shape (.inl hc)]; simp [shapeCount]
  | uneven => rw [h1.shape (.inr hc)]; simp [shapeCount]
  | nested => exact absurd hc hn
  | mixed => exact absurd hc hx

private lemma laidOut_length {cls : ModelType} {args : ModelArgs ℝ} {alts : List ℝ} {k : ℕ} {θ : List ℝ}
    {p : ParamArrays} {q : AltParams} (h : LaidOut cls args alts k θ p q) (hn : cls ≠ .nested) (hx : cls ≠ .mixed) :
    θ.length = totalParams cls ⟨alts.length, k, 0, 0⟩ (args.interceptRefPos != .none) := by
  have e1 := laidOut_shapes h hn hx
  obtain ⟨h1, -, h3, h4, rfl⟩ := h
  have e3 : (p.intercepts.getD []).length = interceptCount cls alts.length (args.interceptRefPos != .none) := by
    cases hp : p.intercepts with
    | none =>
      rcases h3.1 hp with e | e | e
      · rw [e]; rfl
      · rw [e]; cases cls <;> rfl
      · rw [e]; cases cls <;> simp [interceptCount]
    | some x =>
      have hno : ¬ (cls = .mnl ∨ args.interceptRefPos = .none ∨ alts.length = 1) := by rw [← h3, hp]; simp
      push Not at hno
      have hr : (args.interceptRefPos != .none) = true := by simpa using hno.2.1
      rw [Option.getD_some, listsOthers_length (h1.icpt x hp), hr]
      cases cls <;> simp_all [interceptCount]
  rw [List.length_append, List.length_append, e1, e3, h4]
  cases cls <;> simp_all [totalParams, shapeCount, interceptCount] <;> ring

/-! ## Helper lemmas: a table that lacks an alternative has fewer parameters, unless none belongs to one -/

private lemma columns_shrink {alts alts' : List ℝ} (h : alts'.length < alts.length) (s : List (String × SpecVal ℝ)) :
    (specColumns alts' s).length ≤ (specColumns alts s).length ∧
    ((specColumns alts' s).length = (specColumns alts s).length → specColumns alts' s = specColumns alts s) := by
  induction s with
  | nil => exact ⟨le_rfl, fun _ => rfl⟩
  | cons kv s ih =>
    obtain ⟨i1, i2⟩ := ih
    obtain ⟨k, v⟩ := kv
    have e : ∀ l, specColumns l ((k, v) :: s) = v.columns l k ++ specColumns l s := fun l => by
      simp [specColumns]
    rw [e, e]
    cases v with
    | allDiff =>
      simp only [SpecVal.columns, List.length_append, List.length_map]
      exact ⟨by omega, fun h' => by omega⟩
    | allSame =>
      simp only [SpecVal.columns, List.length_append]
      exact ⟨by omega, fun h' => by rw [i2 (by omega)]⟩
    | groups l =>
      simp only [SpecVal.columns, List.length_append]
      exact ⟨by omega, fun h' => by rw [i2 (by omega)]⟩

private lemma same_alternatives {cls : ModelType} {outside : Bool} {s : List (String × SpecVal ℝ)} {alts alts' : List ℝ}
    (ha : alts.Pairwise (· < ·)) (ha' : alts'.Pairwise (· < ·)) (hsub : ∀ b ∈ alts', b ∈ alts) (hne : alts' ≠ [])
    (hn : cls ≠ .nested) (hx : cls ≠ .mixed)
    (h : totalParams cls ⟨alts'.length, (specColumns alts' s).length, 0, 0⟩ outside =
      totalParams cls ⟨alts.length, (specColumns alts s).length, 0, 0⟩ outside) :
    alts' = alts ∨ (specColumns alts' s = specColumns alts s ∧ (cls = .mnl ∨ cls = .cloglog ∧ outside = false)) := by
  have hsp : alts'.Subperm alts := List.subperm_of_subset (ha'.imp fun h => ne_of_lt h) hsub
  rcases hsp.length_le.lt_or_eq with hlt | heq
  · right
    have hpos := List.length_pos_iff.2 hne
    obtain ⟨c1, c2⟩ := columns_shrink hlt s
    cases cls <;> simp only [totalParams] at h
    all_goals try (exact absurd rfl hn)
    all_goals try (exact absurd rfl hx)
    all_goals try (exfalso; split_ifs at h <;> omega)
    · exact ⟨c2 h, .inl rfl⟩
    · cases outside with
      | true => simp only [if_true] at h; omega
      | false =>
        simp only [Bool.false_eq_true, if_false, zero_add] at h
        exact ⟨c2 h, .inr ⟨rfl, rfl⟩⟩
  · left
    have hp := hsp.perm_of_length_le heq.ge
    exact List.Perm.eq_of_pairwise (le := (· < ·)) (fun a b _ _ hab hba => absurd hab (lt_asymm hba)) ha' ha hp

private lemma laidOut_unique {cls : ModelType} {args args' : ModelArgs ℝ} {alts : List ℝ} {k : ℕ} {θ : List ℝ}
    {p p' : ParamArrays} {q q' : AltParams} (hi : args.interceptRefPos = args'.interceptRefPos)
    (hs : args.shapeRefPos = args'.shapeRefPos)
    (h : LaidOut cls args alts k θ p q) (h' : LaidOut cls args' alts k θ p' q') (hn : cls ≠ .nested)
    (hx : cls ≠ .mixed) : p.index = p'.index ∧ p.shapes = p'.shapes ∧ p.intercepts = p'.intercepts ∧
      (∀ a ∈ alts, q.icpt a = q'.icpt a) ∧
      (cls = .scobit ∨ cls = .uneven ∨ cls = .asym → ∀ a ∈ alts, q.shape a = q'.shape a) := by
  have e1 := laidOut_shapes h hn hx
  have e2 := laidOut_shapes h' hn hx
  obtain ⟨h1, h2, h3, h4, h5⟩ := h
  obtain ⟨h1', h2', h3', h4', h5'⟩ := h'
  rw [h5] at h5'
  obtain ⟨f1, f2⟩ := List.append_inj h5' (e1.trans e2.symm)
  obtain ⟨f3, f4⟩ := List.append_inj' f2 (h4.trans h4'.symm)
  have g1 : p.shapes = p'.shapes := by
    rw [← h2] at h2'
    cases hp : p.shapes with
    | none => rw [h2'.2 hp]
    | some x =>
      cases hp' : p'.shapes with
      | none => rw [h2'.1 hp'] at hp; cases hp
      | some x' => rw [hp, hp'] at f1; simpa using f1
  have g2 : p.intercepts = p'.intercepts := by
    rw [← hi, ← h3] at h3'
    cases hp : p.intercepts with
    | none => rw [h3'.2 hp]
    | some x =>
      cases hp' : p'.intercepts with
      | none => rw [h3'.1 hp'] at hp; cases hp
      | some x' => rw [hp, hp'] at f3; simpa using f3
  refine ⟨f4, g1, g2, ?_, ?_⟩
  · intro a ha
    cases hp : p.intercepts with
    | none => rw [h1.noIcpt hp a ha, h1'.noIcpt (g2 ▸ hp) a ha]
    | some x =>
      have := h1'.icpt x (g2 ▸ hp)
      rw [← hi] at this
      exact listsOthers_unique (h1.icpt x hp) this a ha
  · intro hc a ha
    by_cases hasym : cls = .asym
    · obtain ⟨x, e, hl⟩ := h1.eta hasym
      obtain ⟨x', e', hl'⟩ := h1'.eta hasym
      rw [← g1, e] at e'
      cases e'
      rw [← hs] at hl'
      exact listsOthers_unique hl hl' a ha
    · have hsu : cls = .scobit ∨ cls = .uneven := by
        rcases hc with h | h | h
        · exact .inl h
        · exact .inr h
        · exact absurd h hasym
      have e := h1.shape hsu
      rw [g1, h1'.shape hsu, Option.some.injEq] at e
      exact (List.map_inj_left.1 e a ha).symm

/-- One function of the cells of a row gives both models' utilities, if their tables have the same alternatives or no
parameter belongs to an alternative. -/
private lemma documented_cells {m m' : ChoiceModel ℝ} {alts alts' : List ℝ} {cols : List (ColDesc ℝ)} {n : ℕ}
    (hcls : m'.cls = m.cls) (hi : m'.args.interceptRefPos = m.args.interceptRefPos)
    (hs : m'.args.shapeRefPos = m.args.shapeRefPos) (hac : m'.args.altIdCol = m.args.altIdCol)
    (hn : m.cls ≠ .nested) (hx : m.cls ≠ .mixed)
    (ha : AltsOf m.data m.args.altIdCol alts) (ha' : AltsOf m'.data m.args.altIdCol alts')
    (hsame : alts' = alts ∨ m.cls = .mnl ∨ m.cls = .cloglog ∧ m.args.interceptRefPos = .none)
    {U : (Fin n → ℝ) → Fin m.data.numRows → ℝ} (hU : DocumentedUtilities m alts cols U)
    {U' : (Fin n → ℝ) → Fin m'.data.numRows → ℝ} (hU' : DocumentedUtilities m' alts' cols U') (θ : Fin n → ℝ) :
    ∃ beta q, (∀ r, U θ r = cellUtility m.cls alts m.args.altIdCol cols beta q fun c => m.data.val c r) ∧
      ∀ r, U' θ r = cellUtility m.cls alts m.args.altIdCol cols beta q fun c => m'.data.val c r := by
  obtain ⟨p, q, h1, h2, h3, h4, h5, h6⟩ := hU θ
  obtain ⟨p', q', h1', h2', h3', h4', h5', h6'⟩ := hU' θ
  rw [hcls] at h1' h2' h3'
  rcases hsame with rfl | hplain
  · have L : LaidOut m.cls m.args alts' cols.length (List.ofFn θ) p q := ⟨h1, h2, h3, h4, h5⟩
    have L' : LaidOut m.cls m'.args alts' cols.length (List.ofFn θ) p' q' := ⟨h1', h2', h3', h4', h5'⟩
    obtain ⟨e1, -, -, e4, e5⟩ := laidOut_unique hi.symm hs.symm L L' hn hx
    refine ⟨p.index, q, fun r => ?_, fun r => ?_⟩
    · rw [h6 r, cellUtility, rowIndex]
      simp only [value_valueAt]
    · rw [h6' r, hcls, hac, cellUtility, rowIndex, ← e1]
      simp only [value_valueAt]
      exact (rowUtility_congr ((ha'.mem _).2 ⟨r, rfl⟩) (fun _ _ _ => e4) e5).symm
  · have hsh : m.cls = .mnl ∨ m.cls = .cloglog := hplain.imp id And.left
    have hic : p.intercepts = none := h3.2 (by rcases hplain with h | h; exacts [.inl h, .inr (.inl h.2)])
    have hic' : p'.intercepts = none := h3'.2 (by
      rw [hi]; rcases hplain with h | h; exacts [.inl h, .inr (.inl h.2)])
    have e1 : p.index = p'.index := by
      rw [h5, h2.2 hsh, h2'.2 hsh, hic, hic'] at h5'
      simpa using h5'
    have hq : ∀ b ∈ alts, q.icpt b = 0 := h1.noIcpt hic
    have hq' : ∀ b ∈ alts', q'.icpt b = 0 := h1'.noIcpt hic'
    have plain : ∀ (l : List ℝ) (q : AltParams) (b v : ℝ), q.icpt b = 0 →
        rowUtility m.cls l q b v = rowUtility m.cls alts ⟨fun _ => 0, fun _ => 0⟩ b v := by
      intro l q b v hb
      rcases hsh with h | h <;> rw [h] <;> simp [rowUtility, hb]
    refine ⟨p.index, ⟨fun _ => 0, fun _ => 0⟩, fun r => ?_, fun r => ?_⟩
    · rw [h6 r, cellUtility, rowIndex, plain _ _ _ _ (hq _ ((ha.mem _).2 ⟨r, rfl⟩))]
      simp only [value_valueAt]
    · rw [h6' r, hcls, hac, cellUtility, rowIndex, ← e1, plain _ _ _ _ (hq' _ ((ha'.mem _).2 ⟨r, rfl⟩))]
      simp only [value_valueAt]

theorem specColumns_var {alts : List ℝ} {s : List (String × SpecVal ℝ)} {d : ColDesc ℝ}
    (h : d ∈ specColumns alts s) :
    ∃ v ∈ s.map Prod.fst, d = .same v ∨ (∃ a, d = .alt v a) ∨ ∃ l, d = .group v l := by
  obtain ⟨kv, hkv, hd⟩ := List.mem_flatMap.1 h
  refine ⟨kv.1, List.mem_map_of_mem hkv, ?_⟩
  obtain ⟨k, v⟩ := kv
  cases v with
  | allSame => simp [SpecVal.columns] at hd; exact .inl hd
  | allDiff =>
    simp only [SpecVal.columns, List.mem_map] at hd
    obtain ⟨a, -, rfl⟩ := hd
    exact .inr (.inl ⟨a, rfl⟩)
  | groups l =>
    simp only [SpecVal.columns, List.mem_map] at hd
    obtain ⟨a, -, rfl⟩ := hd
    cases a with
    | inl a => exact .inr (.inl ⟨a, rfl⟩)
    | inr g => exact .inr (.inr ⟨g, rfl⟩)

private lemma cellUtility_congr {cls : ModelType} {alts : List ℝ} {altCol : String} {s : List (String × SpecVal ℝ)}
    {beta : List ℝ} {q : AltParams} {C : List String} (halt : altCol ∈ C) (hs : ∀ v ∈ s.map Prod.fst, v ∈ C)
    {row row' : String → ℝ} (h : ∀ c ∈ C, row' c = row c) :
    cellUtility cls alts altCol (specColumns alts s) beta q row' =
      cellUtility cls alts altCol (specColumns alts s) beta q row := by
  unfold cellUtility
  rw [h altCol halt]
  congr 2
  refine List.map_congr_left fun p hp => ?_
  obtain ⟨v, hv, hd⟩ := specColumns_var (List.of_mem_zip hp).1
  have hv' := h v (hs v hv)
  rcases hd with hd | ⟨a, hd⟩ | ⟨l, hd⟩ <;> rw [hd] <;> simp only [ColDesc.valueAt, hv']

/-! ## Helper lemmas: tables whose observations are copies of observations of another table -/

/-- Every observation of the table `df'` has the rows of an observation of `df`, with the same cells in the columns of
`df`. -/
structure CopiesOf (df : Frame ℝ) (obsCol : String) (df' : Frame ℝ) (obsCol' : String) (ids' : List ℝ) (src : ℝ → ℝ) :
    Prop where
  ids : AltsOf df' obsCol' ids'
  rows : ∀ i ∈ ids', ∃ tag : (String → ℝ) → String → ℝ, (∀ row, ∀ c ∈ df.columns, tag row c = row c) ∧
    obsRows df' obsCol' i = (obsRows df obsCol (src i)).map tag

theorem sum_obsRows (df : Frame ℝ) (obsCol : String) (o : ℝ) (φ : (String → ℝ) → ℝ) :
    ((obsRows df obsCol o).map φ).sum = ∑ r with df.val obsCol r = o, φ fun c => df.val c r := by
  unfold obsRows
  rw [List.map_map]
  have hn : ((List.finRange df.numRows).filter fun r => decide (df.val obsCol r = o)).Nodup :=
    (List.nodup_finRange _).filter _
  rw [show (φ ∘ fun (r : Fin df.numRows) c => df.val c r) = fun r => φ fun c => df.val c r from rfl,
    ← List.sum_toFinset _ hn]
  congr 1
  ext r
  simp

private lemma obsLogLik_cells (D : LongData) {u : Fin D.df.numRows → ℝ} {φ : (String → ℝ) → ℝ}
    (hu : ∀ r, u r = φ fun c => D.df.val c r) (o : ℝ) :
    D.obsLogLik u o = ((obsRows D.df D.obsCol o).map fun row => row D.choiceCol *
      Real.log (Real.exp (clip700 (φ row)) /
        ((obsRows D.df D.obsCol o).map fun row => Real.exp (clip700 (φ row))).sum)).sum := by
  rw [sum_obsRows, sum_obsRows]
  unfold LongData.obsLogLik LongData.rows
  refine Finset.sum_congr rfl fun r hr => ?_
  rw [Finset.mem_filter] at hr
  simp only [LongData.y, LongData.prob, clippedLogit, logitProb, hu, rowsOf, hr.2]

private lemma obsLogLik_copy {D D' : LongData} (hch : D'.choiceCol = D.choiceCol) {C : List String}
    (hcol : D.choiceCol ∈ C) {φ : (String → ℝ) → ℝ} (hφ : ∀ row row', (∀ c ∈ C, row' c = row c) → φ row' = φ row)
    {u : Fin D.df.numRows → ℝ} {u' : Fin D'.df.numRows → ℝ} (hu : ∀ r, u r = φ fun c => D.df.val c r)
    (hu' : ∀ r, u' r = φ fun c => D'.df.val c r) {i o : ℝ} {tag : (String → ℝ) → String → ℝ}
    (htag : ∀ row, ∀ c ∈ C, tag row c = row c)
    (h : obsRows D'.df D'.obsCol i = (obsRows D.df D.obsCol o).map tag) : D'.obsLogLik u' i = D.obsLogLik u o := by
  rw [obsLogLik_cells D' hu', obsLogLik_cells D hu, h, hch]
  simp only [List.map_map, Function.comp_def, htag _ _ hcol, hφ _ _ (htag _)]

theorem copies_row {df df' : Frame ℝ} {obsCol obsCol' : String} {ids' : List ℝ} {src : ℝ → ℝ}
    (h : CopiesOf df obsCol df' obsCol' ids' src) (r' : Fin df'.numRows) :
    ∃ r, df.val obsCol r = src (df'.val obsCol' r') ∧ ∀ c ∈ df.columns, df'.val c r' = df.val c r := by
  have hi : df'.val obsCol' r' ∈ ids' := (h.ids.mem _).2 ⟨r', rfl⟩
  obtain ⟨tag, ht, hr⟩ := h.rows _ hi
  have hmem : (fun c => df'.val c r') ∈ obsRows df' obsCol' (df'.val obsCol' r') :=
    List.mem_map.2 ⟨r', by simp, rfl⟩
  rw [hr] at hmem
  obtain ⟨row, hrow, e⟩ := List.mem_map.1 hmem
  obtain ⟨r, hr', rfl⟩ := List.mem_map.1 hrow
  refine ⟨r, by simpa using hr', fun c hc => ?_⟩
  have := congrFun e c
  rw [ht _ c hc] at this
  exact this.symm

theorem copies_back {df df' : Frame ℝ} {obsCol obsCol' : String} {ids' : List ℝ} {src : ℝ → ℝ}
    (h : CopiesOf df obsCol df' obsCol' ids' src) {i : ℝ} (hi : i ∈ ids') {r : Fin df.numRows}
    (hr : df.val obsCol r = src i) :
    ∃ r', df'.val obsCol' r' = i ∧ ∀ c ∈ df.columns, df'.val c r' = df.val c r := by
  obtain ⟨tag, ht, he⟩ := h.rows _ hi
  have hmem : (fun c => df.val c r) ∈ obsRows df obsCol (src i) := List.mem_map.2 ⟨r, by simpa using hr, rfl⟩
  have : tag (fun c => df.val c r) ∈ obsRows df' obsCol' i := he ▸ List.mem_map_of_mem hmem
  obtain ⟨r', hr', e⟩ := List.mem_map.1 this
  refine ⟨r', by simpa using hr', fun c hc => ?_⟩
  have := congrFun e c
  rw [ht _ c hc] at this
  exact this

theorem copies_oneChoice {df df' : Frame ℝ} {obsCol obsCol' choice : String} {ids' : List ℝ} {src : ℝ → ℝ}
    (h : CopiesOf df obsCol df' obsCol' ids' src) (hcol : choice ∈ df.columns) {chosen : ℝ → Fin df.numRows}
    (hc : OneChoicePerObs df obsCol choice chosen) (hpos : 0 < df'.numRows) :
    ∃ chosen', OneChoicePerObs df' obsCol' choice chosen' := by
  have key : ∀ i ∈ ids', ∃ r', df'.val obsCol' r' = i ∧ df'.val choice r' = 1 ∧
      ∀ s, df'.val obsCol' s = i → s ≠ r' → df'.val choice s = 0 := by
    intro i hi
    obtain ⟨r0, hr0⟩ := (h.ids.mem _).1 hi
    obtain ⟨r, hr, -⟩ := copies_row h r0
    rw [hr0] at hr
    obtain ⟨tag, ht, he⟩ := h.rows _ hi
    have hsum : ∑ s with df'.val obsCol' s = i, df'.val choice s = 1 := by
      rw [← sum_obsRows df' obsCol' i fun row => row choice, he, List.map_map]
      simp only [Function.comp_def, ht _ _ hcol]
      rw [sum_obsRows, Finset.sum_eq_single (chosen (src i))]
      · rw [← hr]; exact hc.one r
      · intro s hs hne
        rw [Finset.mem_filter] at hs
        exact hc.zero s (by rw [hs.2]; exact hne)
      · intro hno
        exact absurd (by rw [Finset.mem_filter, ← hr]; exact ⟨Finset.mem_univ _, hc.mem r⟩) hno
    have h01 : ∀ s, df'.val choice s = 0 ∨ df'.val choice s = 1 := by
      intro s
      obtain ⟨t, -, ht'⟩ := copies_row h s
      rw [ht' _ hcol]
      by_cases e : t = chosen (df.val obsCol t)
      · right; rw [e]; exact hc.one t
      · left; exact hc.zero t e
    have hex : ∃ r', df'.val obsCol' r' = i ∧ df'.val choice r' = 1 := by
      by_contra hno
      push Not at hno
      rw [Finset.sum_eq_zero fun s hs => ?_] at hsum
      · exact zero_ne_one hsum
      · rw [Finset.mem_filter] at hs
        exact (h01 s).resolve_right (hno s hs.2)
    obtain ⟨r', h1, h2⟩ := hex
    refine ⟨r', h1, h2, fun s hs hne => (h01 s).resolve_right fun e => ?_⟩
    have hle : ∑ t ∈ {s, r'}, df'.val choice t ≤ ∑ s with df'.val obsCol' s = i, df'.val choice s :=
      Finset.sum_le_sum_of_subset_of_nonneg (by
        intro t ht
        rw [Finset.mem_insert, Finset.mem_singleton] at ht
        rw [Finset.mem_filter]
        rcases ht with rfl | rfl
        · exact ⟨Finset.mem_univ _, hs⟩
        · exact ⟨Finset.mem_univ _, h1⟩) fun t _ _ => by rcases h01 t with e | e <;> rw [e] <;> norm_num
    rw [Finset.sum_pair hne, e, h2, hsum] at hle
    norm_num at hle
  classical
  refine ⟨fun i => if hi : i ∈ ids' then (key i hi).choose else ⟨0, hpos⟩, fun r => ?_, fun r => ?_, fun r hne => ?_⟩
  all_goals have hi : df'.val obsCol' r ∈ ids' := (h.ids.mem _).2 ⟨r, rfl⟩
  · simp only [hi, dif_pos]; exact (key _ hi).choose_spec.1
  · simp only [hi, dif_pos]; exact (key _ hi).choose_spec.2.1
  · simp only [hi, dif_pos] at hne
    exact (key _ hi).choose_spec.2.2 r rfl hne

theorem copies_index {df df' : Frame ℝ} {altCol : String} {alts : List ℝ} {s : List (String × SpecVal ℝ)}
    (halt : altCol ∈ df.columns) (hs : ∀ v ∈ s.map Prod.fst, v ∈ df.columns) (beta : List ℝ) {r : Fin df.numRows}
    {r' : Fin df'.numRows} (h : ∀ c ∈ df.columns, df'.val c r' = df.val c r) :
    rowIndex df' altCol (specColumns alts s) beta r' = rowIndex df altCol (specColumns alts s) beta r := by
  unfold rowIndex
  congr 1
  refine List.map_congr_left fun p hp => ?_
  obtain ⟨v, hv, hd⟩ := specColumns_var (List.of_mem_zip hp).1
  have hv' := h v (hs v hv)
  rcases hd with hd | ⟨a, hd⟩ | ⟨l, hd⟩ <;> rw [hd] <;> simp only [ColDesc.value, hv', h altCol halt]

private lemma point_class {opts : PointOptions} {m : ChoiceModel ℝ} {init y : List ℝ}
    (h : pointEstimate opts m init = .ok y) : 0 < m.data.numRows ∧ (m.cls ≠ .nested ∧ m.cls ≠ .mixed) ∧
      (0 < (fitDims m).numAlts → init.length = totalParams m.cls (fitDims m) (m.args.interceptRefPos != .none)) := by
  unfold pointEstimate at h
  simp only [bind, Except.bind] at h
  split at h
  · cases h
  rename_i x hx
  split at h
  · cases h
  split at h
  · rename_i hrows
    split at h
    · cases h
    rename_i obj hobj
    split at h
    · cases h
    rename_i u' hlen
    have hxi : x = init := by
      cases hcl : m.cls <;> rw [hcl] at hx <;>
        simp [rawInitVals, initPlain, initClog, initShapesModel] at hx <;> exact hx.symm
    subst hxi
    exact ⟨hrows, object_class hobj, fun hpos => (checkInitLength_iff _ _ _ _ hpos).1.1 hlen⟩
  · cases h

/-- The estimate on a table of copies maximises the sum of the parts of the observations copied. -/
theorem copies_optimised {env : Env ℝ} {ty : String} {df : Frame ℝ} {a : ModelArgs ℝ} {m : ChoiceModel ℝ}
    (hm : createChoiceModel env ty df a = .ok m) {s : List (String × SpecVal ℝ)}
    (hspec : m.args.specification = encodeAll s) {alts : List ℝ} (ids : List ℝ)
    (ha : AltsOf m.data m.args.altIdCol alts) (h2 : m.cls = .asym → 2 ≤ alts.length)
    {chosen : ℝ → Fin m.data.numRows} (hc : OneChoicePerObs m.data m.args.obsIdCol m.args.choiceCol chosen)
    {n : ℕ} {U : (Fin n → ℝ) → Fin m.data.numRows → ℝ} (hU : DocumentedUtilities m alts (specColumns alts s) U)
    {df' : Frame ℝ} {obsCol' : String} {m' : ChoiceModel ℝ} (hm' : recreate env m obsCol' df' = .ok m')
    (hcls : m'.cls = m.cls) (hargs : m'.args = { m.args with obsIdCol := obsCol' })
    (hdata : m'.data = addIntercept m.args.specification df') (hsub : ∀ c ∈ m.data.columns, c ∈ df'.columns)
    {ids' : List ℝ} {src : ℝ → ℝ} (hcop : CopiesOf m.data m.args.obsIdCol df' obsCol' ids' src)
    {opts : PointOptions} {init y : List ℝ} (hinit : init.length = n) (h : pointEstimate opts m' init = .ok y) :
    ∃ x : Fin n → ℝ, y = List.ofFn x ∧
      OptimisedBy opts init ((tableOf m ids).sampleLogLik (ids'.map src) opts.ridge U)
        (fun θ => SmoothAt m (specColumns alts s) θ ∧ ∀ r, |U θ r| < 700) x := by
  have hown := (built_own hm).1
  have hdes := hown.design
  rw [hspec] at hdes
  obtain ⟨halt, hvars, -⟩ := (createDesignMatrix_ok_iff rfl).1 hdes
  have hvars' : ∀ v ∈ s.map Prod.fst, v ∈ m.data.columns := by
    intro v hv
    refine hvars v ?_
    simpa [encodeAll, Function.comp_def] using hv
  have hdf : m'.data = df' := by
    rw [hdata, addIntercept, if_neg]
    rintro ⟨h1, h2⟩
    refine h2 (hsub _ ?_)
    rw [hspec] at h1
    exact hvars _ h1
  obtain ⟨md, hmd⟩ : ∃ md, md = m'.data := ⟨_, rfl⟩
  subst hdf
  have hsp' : m'.args.specification = encodeAll s := by rw [hargs]; exact hspec
  have eo : m'.args.obsIdCol = obsCol' := by rw [hargs]
  have ea : m'.args.altIdCol = m.args.altIdCol := by rw [hargs]
  have ech : m'.args.choiceCol = m.args.choiceCol := by rw [hargs]
  have eir : m'.args.interceptRefPos = m.args.interceptRefPos := by rw [hargs]
  have esr : m'.args.shapeRefPos = m.args.shapeRefPos := by rw [hargs]
  unfold recreate at hm'
  simp only [bind, Except.bind] at hm'
  split at hm'
  · cases hm'
  obtain ⟨hpos, hmixed, hlen⟩ := point_class h
  obtain ⟨chosen', hc'⟩ := copies_oneChoice hcop hown.choice hc hpos
  obtain ⟨alts', ha'⟩ : ∃ alts', AltsOf m'.data m'.args.altIdCol alts' :=
    ⟨npSort (npUnique (m'.data.colList m'.args.altIdCol)), by rw [npSort_npUnique]; exact npUnique_strict _, fun b => by
      rw [mem_npSort, mem_npUnique, Frame.colList, List.mem_ofFn]⟩
  have hne' : alts' ≠ [] := List.ne_nil_of_mem ((ha'.mem _).2 ⟨⟨0, hpos⟩, rfl⟩)
  have hlen' : m'.design.length = (specColumns alts' s).length := by
    have hdes' := (built_own hm').1.design
    rw [hsp'] at hdes'
    rw [show m'.design = _ from design_entries ha' hdes', List.length_map, specColumns]
  have hdims : fitDims m' = ⟨alts'.length, (specColumns alts' s).length, 0, 0⟩ := by
    simp [fitDims, altsOf_eq ha', hlen', built_nest hm' hmixed.1, built_mixing hm' hmixed.2, nameCount]
  rw [hdims] at hlen
  have hcount := hlen (List.length_pos_iff.2 hne')
  rw [hcls] at hmixed
  have hsame : alts' = alts ∨ (specColumns alts' s = specColumns alts s ∧
      (m.cls = .mnl ∨ m.cls = .cloglog ∧ (m.args.interceptRefPos != .none) = false)) := by
    refine same_alternatives ha.ascending ha'.ascending (fun b hb => ?_) hne' hmixed.1 hmixed.2
      (outside := m.args.interceptRefPos != .none) ?_
    · obtain ⟨r', hr'⟩ := (ha'.mem _).1 hb
      obtain ⟨r, -, hr⟩ := copies_row hcop r'
      exact (ha.mem _).2 ⟨r, (hr _ halt).symm.trans (ea ▸ hr')⟩
    · rw [hcls, eir, hinit] at hcount
      rw [← hcount]
      obtain ⟨p, q, h1, h2, h3, h4, h5, -⟩ := hU fun _ => 0
      have := laidOut_length (cls := m.cls) (args := m.args) ⟨h1, h2, h3, h4, h5⟩ hmixed.1 hmixed.2
      simpa using this
  have hcols : specColumns alts' s = specColumns alts s := by
    rcases hsame with h | h
    · rw [h]
    · exact h.1
  have hsame' : alts' = alts ∨ m.cls = .mnl ∨ m.cls = .cloglog ∧ m.args.interceptRefPos = .none := by
    rcases hsame with h | ⟨-, h | ⟨h, h'⟩⟩
    · exact .inl h
    · exact .inr (.inl h)
    · exact .inr (.inr ⟨h, by simpa using h'⟩)
  obtain ⟨n', U', x, hU', rfl, hopt⟩ := point_optimised hm' hsp' ids' ha' (by
      rw [hcls]
      intro hasym
      rcases hsame' with h | h | h
      · rw [h]; exact h2 hasym
      · rw [hasym] at h; cases h
      · rw [hasym] at h; cases h.1)
    (chosen := chosen') (by rw [eo, ech]; exact hc') h
  rw [hcols] at hU' hopt
  have hn : n' = n := by rw [← hopt.1, hinit]
  subst hn
  rw [ea] at ha'
  have hcells := documented_cells (m := m) (m' := m') hcls eir esr ea hmixed.1 hmixed.2 ha ha' hsame' hU hU'
  have hLL : ∀ θ, (tableOf m' ids').logLik opts.ridge U' θ =
      (tableOf m ids).sampleLogLik (ids'.map src) opts.ridge U θ := by
    intro θ
    obtain ⟨beta, q, g1, g2⟩ := hcells θ
    unfold LongData.logLik LongData.sampleLogLik
    congr 1
    refine (sum_of_groups m'.data obsCol' _ hcop.ids).symm.trans ?_
    rw [List.map_map]
    congr 1
    refine List.map_congr_left fun i hi => ?_
    obtain ⟨tag, ht, hr⟩ := hcop.rows i hi
    have := obsLogLik_copy (D := tableOf m ids) (D' := tableOf m' ids') ech hown.choice
      (φ := cellUtility m.cls alts m.args.altIdCol (specColumns alts s) beta q)
      (fun row row' hrow => cellUtility_congr halt hvars' hrow) g1 g2 (i := i) (o := src i) ht (by
        show obsRows m'.data m'.args.obsIdCol i = _
        rw [eo]; exact hr)
    rw [Function.comp_apply, ← this]
    unfold LongData.obsLogLik LongData.rows
    rw [show (tableOf m' ids').obsCol = obsCol' from eo]
    rfl
  have hgood : ∀ θ : Fin n' → ℝ, (SmoothAt m (specColumns alts s) θ ∧ ∀ r, |U θ r| < 700) →
      SmoothAt m' (specColumns alts s) θ ∧ ∀ r, |U' θ r| < 700 := by
    rintro θ ⟨k1, k2⟩
    obtain ⟨beta, q, g1, g2⟩ := hcells θ
    refine ⟨fun r' => ?_, fun r' => ?_⟩
    · obtain ⟨r, -, hr⟩ := copies_row hcop r'
      rw [hcls, ea, copies_index halt hvars' _ hr]
      exact k1 r
    · obtain ⟨r, -, hr⟩ := copies_row hcop r'
      rw [g2, cellUtility_congr halt hvars' (row := fun c => m.data.val c r) (row' := fun c => m'.data.val c r') hr, ← g1]
      exact k2 r
  refine ⟨x, rfl, ?_⟩
  obtain ⟨o1, f, hh, rep, o2, o3, o4, o5, o6⟩ := hopt
  have eLL : (tableOf m' ids').logLik opts.ridge U' = (tableOf m ids).sampleLogLik (ids'.map src) opts.ridge U :=
    funext hLL
  rw [eLL] at o4 o6
  exact ⟨o1, f, hh, rep, o2, o3, o4, o5, fun θ hθ => o6 θ (hgood θ hθ)⟩

/-! ## Helper lemmas: the tables of replicates are tables of copies -/

theorem bootstrap_copies {df df' : Frame ℝ} {obsCol bootCol : String} (hboot : bootCol ∉ df.columns)
    {sample : List ℝ} (hin : ∀ o ∈ sample, ∃ r, df.val obsCol r = o)
    (h1 : ∀ k (hk : k < sample.length), obsRows df' bootCol ((k + 1 : ℕ) : ℝ) =
      (obsRows df obsCol sample[k]).map fun row c => if c = bootCol then ((k + 1 : ℕ) : ℝ) else row c)
    (h2 : ∀ r, ∃ k, k < sample.length ∧ df'.val bootCol r = ((k + 1 : ℕ) : ℝ)) :
    ∃ ids' src, CopiesOf df obsCol df' bootCol ids' src ∧ ids'.map src = sample := by
  have hsrc : ∀ k (hk : k < sample.length), sample.getD (⌊((k + 1 : ℕ) : ℝ)⌋₊ - 1) 0 = sample[k] := by
    intro k hk
    rw [Nat.floor_natCast, Nat.add_sub_cancel, List.getD_eq_getElem?_getD, List.getElem?_eq_getElem hk, Option.getD_some]
  refine ⟨(List.range sample.length).map fun k => ((k + 1 : ℕ) : ℝ), fun i => sample.getD (⌊i⌋₊ - 1) 0, ⟨⟨?_, ?_⟩, ?_⟩, ?_⟩
  · rw [List.pairwise_map]
    exact List.pairwise_lt_range.imp fun h => by exact_mod_cast Nat.add_lt_add_right h 1
  · intro i
    rw [List.mem_map]
    constructor
    · rintro ⟨k, hk, rfl⟩
      rw [List.mem_range] at hk
      obtain ⟨r, hr⟩ := hin _ (List.getElem_mem hk)
      have hmem : (fun c => df.val c r) ∈ obsRows df obsCol sample[k] := List.mem_map.2 ⟨r, by simpa using hr, rfl⟩
      have := List.mem_map_of_mem (f := fun (row : String → ℝ) c => if c = bootCol then ((k + 1 : ℕ) : ℝ) else row c) hmem
      rw [← h1 k hk] at this
      obtain ⟨r', hr', -⟩ := List.mem_map.1 this
      exact ⟨r', by simpa using hr'⟩
    · rintro ⟨r, hr⟩
      obtain ⟨k, hk, e⟩ := h2 r
      exact ⟨k, List.mem_range.2 hk, e.symm.trans hr⟩
  · intro i hi
    obtain ⟨k, hk, rfl⟩ := List.mem_map.1 hi
    rw [List.mem_range] at hk
    refine ⟨_, fun row c hc => ?_, by rw [hsrc k hk]; exact h1 k hk⟩
    have : c ≠ bootCol := fun e => hboot (e ▸ hc)
    simp [this]
  · rw [List.map_map]
    refine List.ext_getElem (by simp) fun k hk hk' => ?_
    simp only [List.getElem_map, List.getElem_range, Function.comp_apply]
    exact hsrc k hk'

theorem jackknife_copies {df df' : Frame ℝ} {obsCol : String} {ids : List ℝ} (hids : AltsOf df obsCol ids) {o : ℝ}
    (hrows : df'.rows = otherRows df obsCol o) :
    CopiesOf df obsCol df' obsCol (ids.filter fun i => i ≠ o) id := by
  have hother : otherRows df obsCol o = df.rows.filter fun row => row obsCol ≠ o :=
    (rows_filter df fun row => decide (row obsCol ≠ o)).symm
  have hobs : ∀ i, i ≠ o → obsRows df' obsCol i = obsRows df obsCol i := by
    intro i hi
    rw [obsRows_eq, hrows, hother, obsRows_eq, List.filter_filter]
    congr 1
    funext row
    by_cases e : row obsCol = i
    · simp [e, hi]
    · simp [e]
  refine ⟨⟨hids.ascending.filter _, fun i => ?_⟩, fun i hi => ⟨id, fun _ _ _ => rfl, ?_⟩⟩
  · rw [List.mem_filter]
    constructor
    · rintro ⟨h1, h2⟩
      have h2 : i ≠ o := by simpa using h2
      obtain ⟨r, hr⟩ := (hids.mem i).1 h1
      have : (fun c => df.val c r) ∈ obsRows df' obsCol i := by
        rw [hobs i h2]
        exact List.mem_map.2 ⟨r, by simpa using hr, rfl⟩
      obtain ⟨r', hr', -⟩ := List.mem_map.1 this
      exact ⟨r', by simpa using hr'⟩
    · rintro ⟨r', hr'⟩
      have : (fun c => df'.val c r') ∈ df'.rows := List.mem_ofFn.2 ⟨r', rfl⟩
      rw [hrows] at this
      obtain ⟨r, hr, e⟩ := List.mem_map.1 this
      have e' := congrFun e obsCol
      have hne : df.val obsCol r ≠ o := by simpa using hr
      rw [← hr', ← e']
      exact ⟨(hids.mem _).2 ⟨r, rfl⟩, by simpa using hne⟩
  · have : i ≠ o := by simpa using (List.mem_filter.1 hi).2
    rw [hobs i this]
    simp

theorem each_chose_one {df : Frame ℝ} {obsCol altCol choiceCol : String} {chosen : ℝ → Fin df.numRows}
    (hc : OneChoicePerObs df obsCol choiceCol chosen) :
    EachChoseOne (df.val obsCol) (df.val altCol) (df.val choiceCol) := by
  intro r
  refine ⟨df.val altCol (chosen (df.val obsCol r)), ⟨_, hc.mem r, rfl, hc.one r⟩, ?_⟩
  rintro a ⟨r', h1, rfl, h3⟩
  have : r' = chosen (df.val obsCol r') := by
    by_contra hne
    rw [hc.zero r' hne] at h3
    exact zero_ne_one h3
  rw [this, h1]

theorem pointFitter_other {bfgs : Solver} {m : ChoiceModel ℝ} (hm : m.cls ≠ .nested) {init y : List ℝ}
    {opts : PointOptions} (h : (pointFitter bfgs).fit m init opts = .ok y) : pointEstimate opts m init = .ok y := by
  simpa only [pointFitter, if_neg hm] using h

/-! ## The properties -/

/-- The log-likelihood of the sample that contains every observation once is the log-likelihood of the data. -/
theorem sampleLogLik_all {D : LongData} (hids : AltsOf D.df D.obsCol D.ids) (ridge : Option ℝ) {n : ℕ}
    (U : (Fin n → ℝ) → Fin D.df.numRows → ℝ) (θ : Fin n → ℝ) :
    D.sampleLogLik D.ids ridge U θ = D.logLik ridge U θ := by
  unfold LongData.sampleLogLik LongData.logLik
  congr 1
  exact sum_of_groups D.df D.obsCol _ hids

private lemma sampleLogLik_without {D : LongData} (hids : AltsOf D.df D.obsCol D.ids) (o : ℝ) (ridge : Option ℝ) {n : ℕ}
    (U : (Fin n → ℝ) → Fin D.df.numRows → ℝ) (θ : Fin n → ℝ) :
    D.sampleLogLik (D.ids.filter fun i => i ≠ o) ridge U θ = D.logLikWithout o ridge U θ := by
  unfold LongData.sampleLogLik LongData.logLikWithout
  congr 1
  have hn : D.ids.Nodup := hids.ascending.imp fun h => ne_of_lt h
  rw [← List.sum_toFinset _ (hn.filter _)]
  unfold LongData.obsLogLik LongData.rows
  rw [← Finset.sum_fiberwise_of_maps_to (t := (D.ids.filter fun i => i ≠ o).toFinset) (g := D.df.val D.obsCol)]
  · refine Finset.sum_congr rfl fun i hi => Finset.sum_congr ?_ fun _ _ => rfl
    rw [List.mem_toFinset, List.mem_filter] at hi
    have hi : i ≠ o := by simpa using hi.2
    ext r
    simp only [Finset.mem_filter, Finset.mem_univ, true_and]
    exact ⟨fun h => ⟨h ▸ hi, h⟩, fun h => h.2⟩
  · intro r hr
    rw [Finset.mem_filter] at hr
    rw [List.mem_toFinset, List.mem_filter]
    exact ⟨(hids.mem _).2 ⟨r, rfl⟩, by simpa using hr.2⟩

private lemma optimised_max {opts : PointOptions} {n : ℕ} {x₀ : List ℝ} {LL : (Fin n → ℝ) → ℝ}
    {Good : (Fin n → ℝ) → Prop} {x : Fin n → ℝ} (h : OptimisedBy opts x₀ LL Good x)
    (hs : MinimisingSolver opts.solver) (y : Fin n → ℝ) : LL y ≤ LL x := by
  obtain ⟨-, f, hh, rep, h1, rfl, h3, -⟩ := h
  have := hs _ _ _ _ _ h1 y
  rw [h3, h3] at this
  linarith

/-- **C113** (bootstrap). Build a multinomial, clog-log, scobit, uneven or asymmetric logit model on a table in which
every observation chose one row, and generate bootstrap replicates, with any random number generator and any optimiser,
starting from one value per parameter. There is one replicate per sample; every sample has as many observations
as the data, with the same number of choices of each alternative; and the replicate is where the optimiser stopped when
asked to maximise the log-likelihood of the original data with each observation counted as often as it was drawn, for
the utilities `U` the model documents.  So with an optimiser that minimises, it maximises that log-likelihood. -/
theorem bootstrap_replicates_maximise {env : Env ℝ} {ty : String} {df : Frame ℝ} {a : ModelArgs ℝ} {m : ChoiceModel ℝ}
    (hm : createChoiceModel env ty df a = .ok m) (hnn : m.cls ≠ .nested) {s : List (String × SpecVal ℝ)}
    (hspec : m.args.specification = encodeAll s) {alts : List ℝ} (ids : List ℝ)
    (ha : AltsOf m.data m.args.altIdCol alts) (h2 : m.cls = .asym → 2 ≤ alts.length)
    {chosen : ℝ → Fin m.data.numRows} (hc : OneChoicePerObs m.data m.args.obsIdCol m.args.choiceCol chosen)
    (hboot : "bootstrap_id" ∉ m.data.columns)
    {n : ℕ} {U : (Fin n → ℝ) → Fin m.data.numRows → ℝ} (hU : DocumentedUtilities m alts (specColumns alts s) U)
    {g : Rng} (hg : ChoosesMembers g) {bfgs : Solver}
    {extract : ChoiceModel ℝ → List (PyVal ℝ) → List ℝ → ℕ → Except Err (List ℝ)}
    {mnl : MnlArgs ℝ PointOptions} {opts : PointOptions} {numSamples : ℕ} {seed : Option IntArg}
    {st st' : g.State} {reps : List (List ℝ)}
    (hinit : m.cls = .mnl → (mnl.init.getD (List.replicate n 0)).length = n)
    (hext : m.cls ≠ .mnl → ∀ labels est x, extract m labels est n = .ok x → x.length = n)
    (h : bootstrapRun g env bfgs extract m n mnl opts numSamples seed st = .ok (reps, st')) :
    let used := if m.cls = .mnl then mnl.kwargs.getD ⟨bfgs, none, none⟩ else opts
    reps.length = numSamples ∧
    ∃ samples, samplesRng g (m.data.val m.args.obsIdCol) (m.data.val m.args.altIdCol) (m.data.val m.args.choiceCol)
        numSamples seed st = .ok (samples, st') ∧ samples.length = numSamples ∧
      ∀ i (hi : i < samples.length) (hi' : i < reps.length),
        open Classical in
        (samples[i].length = (univ.image (m.data.val m.args.obsIdCol)).card ∧
        (∀ o ∈ samples[i], ∃ r, m.data.val m.args.obsIdCol r = o) ∧
        (∀ b, samples[i].countP (fun o =>
            Chose (m.data.val m.args.obsIdCol) (m.data.val m.args.altIdCol) (m.data.val m.args.choiceCol) o b) =
          ((univ.image (m.data.val m.args.obsIdCol)).filter fun o =>
            Chose (m.data.val m.args.obsIdCol) (m.data.val m.args.altIdCol) (m.data.val m.args.choiceCol) o b).card)) ∧
        ∃ (x₀ : List ℝ) (x : Fin n → ℝ), reps[i] = List.ofFn x ∧
          (m.cls = .mnl → x₀ = mnl.init.getD (List.replicate n 0)) ∧
          OptimisedBy used x₀ ((tableOf m ids).sampleLogLik samples[i] used.ridge U)
            (fun θ => SmoothAt m (specColumns alts s) θ ∧ ∀ r, |U θ r| < 700) x ∧
          (MinimisingSolver used.solver → ∀ y, (tableOf m ids).sampleLogLik samples[i] used.ridge U y ≤
            (tableOf m ids).sampleLogLik samples[i] used.ridge U x) := by
  classical
  intro used
  have hused : used = replicateOptions (pointFitter bfgs) m mnl opts := rfl
  have hown := (built_own hm).1
  have halt : m.args.altIdCol ∈ m.data.columns := ((createDesignMatrix_ok_iff rfl).1 hown.design).1
  unfold bootstrapRun at h
  simp only [bind, Except.bind] at h
  split at h
  · cases h
  rename_i smp hsmp
  split at h
  · cases h
  rename_i reps' hreps
  cases h
  obtain ⟨b1, b2⟩ := bootstrap_samples_rng g hg _ _ _ (each_chose_one hc) numSamples seed st hsmp
  have hrow : 0 < m.data.numRows := lt_of_le_of_lt (Nat.zero_le _) (chosen 0).2
  have hne : ∀ sm ∈ smp.1, sm ≠ [] ∧ ∀ o ∈ sm, ∃ r, m.data.val m.args.obsIdCol r = o := by
    intro sm hsm
    refine ⟨?_, (b2 sm hsm).2.1⟩
    rintro rfl
    have h0 := (b2 _ hsm).1
    rw [List.length_nil, eq_comm, Finset.card_eq_zero, Finset.image_eq_empty] at h0
    exact absurd (Finset.mem_univ (⟨0, hrow⟩ : Fin m.data.numRows)) (by rw [h0]; simp)
  obtain ⟨c1, c2⟩ := bootstrap_runs hm hne hown.obs hboot hreps
  refine ⟨c1.trans b1, smp.1, hsmp, b1, fun i hi hi' => ?_⟩
  have hbi := b2 _ (List.getElem_mem hi)
  refine ⟨by convert hbi, ?_⟩
  obtain ⟨df', m', init, y, d1, d2, d3, d4, d5, d6, d7, d8, d8', d9, d10⟩ := c2 i hi hi'
  obtain ⟨ids', src, hcop, hsrc⟩ := bootstrap_copies hboot hbi.2.1 d2 d3
  have hl : init.length = n := by
    by_cases hcl : m.cls = .mnl
    · rw [d8 hcl]; exact hinit hcl
    · obtain ⟨l, e, hle⟩ := d8' hcl
      exact hext hcl l e _ hle
  obtain ⟨x, rfl, hopt⟩ := copies_optimised hm hspec ids ha h2 hc hU d4 d5 d6 d7
    (fun c hc => by rw [d1]; exact List.mem_append_left _ hc) hcop hl (pointFitter_other (by rw [d5]; exact hnn) d9)
  rw [hsrc] at hopt
  exact ⟨init, x, assignRow_exact d10 (by simp), d8, hopt, fun hmin => optimised_max hopt hmin⟩

/-- **C113** (jackknife). There is one jackknife replicate per observation, in ascending order of the ids, and it is where
the optimiser stopped when asked to maximise the log-likelihood of the data without that observation. -/
theorem jackknife_replicates_maximise {env : Env ℝ} {ty : String} {df : Frame ℝ} {a : ModelArgs ℝ} {m : ChoiceModel ℝ}
    (hm : createChoiceModel env ty df a = .ok m) (hnn : m.cls ≠ .nested) {s : List (String × SpecVal ℝ)}
    (hspec : m.args.specification = encodeAll s) {alts ids : List ℝ}
    (ha : AltsOf m.data m.args.altIdCol alts) (h2 : m.cls = .asym → 2 ≤ alts.length)
    (hids : AltsOf m.data m.args.obsIdCol ids)
    {chosen : ℝ → Fin m.data.numRows} (hc : OneChoicePerObs m.data m.args.obsIdCol m.args.choiceCol chosen)
    {n : ℕ} {U : (Fin n → ℝ) → Fin m.data.numRows → ℝ} (hU : DocumentedUtilities m alts (specColumns alts s) U)
    {bfgs : Solver} {extract : ChoiceModel ℝ → List (PyVal ℝ) → List ℝ → ℕ → Except Err (List ℝ)}
    {mnl : MnlArgs ℝ PointOptions} {opts : PointOptions} {reps : List (List ℝ)}
    (hinit : m.cls = .mnl → (mnl.init.getD (List.replicate n 0)).length = n)
    (hext : m.cls ≠ .mnl → ∀ labels est x, extract m labels est n = .ok x → x.length = n)
    (h : generateJackknifeReplicates env (pointFitter bfgs) extract m n mnl opts = .ok reps) :
    let used := if m.cls = .mnl then mnl.kwargs.getD ⟨bfgs, none, none⟩ else opts
    reps.length = ids.length ∧
    ∀ k (hk : k < ids.length) (hk' : k < reps.length),
      ∃ (x₀ : List ℝ) (x : Fin n → ℝ), reps[k] = List.ofFn x ∧
        (m.cls = .mnl → x₀ = mnl.init.getD (List.replicate n 0)) ∧
        OptimisedBy used x₀ ((tableOf m ids).logLikWithout ids[k] used.ridge U)
          (fun θ => SmoothAt m (specColumns alts s) θ ∧ ∀ r, |U θ r| < 700) x ∧
        (MinimisingSolver used.solver → ∀ y, (tableOf m ids).logLikWithout ids[k] used.ridge U y ≤
          (tableOf m ids).logLikWithout ids[k] used.ridge U x) := by
  intro used
  have hused : used = replicateOptions (pointFitter bfgs) m mnl opts := rfl
  have hown := (built_own hm).1
  have halt : m.args.altIdCol ∈ m.data.columns := ((createDesignMatrix_ok_iff rfl).1 hown.design).1
  obtain ⟨ids0, e1, e2, e3, e4⟩ := jackknife_runs hm h
  obtain rfl : ids0 = ids := (altsOf_eq ⟨e1, e2⟩).symm.trans (altsOf_eq hids)
  refine ⟨e3, fun k hk hk' => ?_⟩
  obtain ⟨df', m', init, y, d1, d2, d3, d4, d5, d6, d7, d7', d8, d9⟩ := e4 k hk hk'
  have hcop := jackknife_copies hids d2
  have hl : init.length = n := by
    by_cases hcl : m.cls = .mnl
    · rw [d7 hcl]; exact hinit hcl
    · obtain ⟨l, e, hle⟩ := d7' hcl
      exact hext hcl l e _ hle
  obtain ⟨x, rfl, hopt⟩ := copies_optimised hm hspec ids0 ha h2 hc hU d3 d4 d5 d6
    (fun c hc => by rw [d1]; exact hc) hcop hl (pointFitter_other (by rw [d4]; exact hnn) d8)
  rw [List.map_id] at hopt
  have e : (tableOf m ids0).sampleLogLik (ids0.filter fun i => i ≠ ids0[k])
      (replicateOptions (pointFitter bfgs) m mnl opts).ridge U =
      (tableOf m ids0).logLikWithout ids0[k] used.ridge U :=
    funext fun θ => sampleLogLik_without (D := tableOf m ids0) hids ids0[k] _ U θ
  rw [e] at hopt
  exact ⟨init, x, assignRow_exact d9 (by simp), d7, hopt, fun hmin => optimised_max hopt hmin⟩

end

end Pylogit
