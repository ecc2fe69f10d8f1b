import Verif.Spec.ReplicateLikes
import Verif.Props.PredictNested
import Verif.Props.BootstrapMle

/-! # C74: log-likelihoods of replicates -/

open Finset Matrix

set_option linter.unusedSectionVars false

namespace Pylogit

open Spec

variable {d : ℕ}

/-! ## Log-likelihoods from chosen probabilities -/

theorem chosenProbs_frame (df : Frame ℝ) (obsCol c : String) (h : Fin df.numRows → ℝ)
    (o : Fin (originalOrderUniqueIds (df.colList obsCol)).length) :
    chosenProbs (df.rowsToObs obsCol) (Matrix.of fun r o => df.rowsToObs obsCol r o * df.val c r) h o =
      ∑ r with df.val obsCol r = (originalOrderUniqueIds (df.colList obsCol)).get o,
        df.val c r * clippedLogit (df.val obsCol) h r := by
  have := probParts_eq df obsCol h (some c) false
  simp only [probParts, predictedParts, Option.map_some] at this
  injection this with this
  exact congrFun (congrFun this o) ()

theorem sum_marked {df : Frame ℝ} {obsCol c : String} (hm : MarksChoices df obsCol c)
    (o : Fin (originalOrderUniqueIds (df.colList obsCol)).length) :
    ∃ s, ∀ F : Fin df.numRows → ℝ,
      ∑ r with df.val obsCol r = (originalOrderUniqueIds (df.colList obsCol)).get o,
        df.val c r * F r = F s := by
  have hmem := List.get_mem (originalOrderUniqueIds (df.colList obsCol)) o
  obtain ⟨r0, hr0⟩ : ∃ r0, df.val obsCol r0 = (originalOrderUniqueIds (df.colList obsCol)).get o := by
    have := mem_originalOrder.1 hmem
    exact List.mem_ofFn.1 this
  obtain ⟨s, ⟨hs1, hs2⟩, huniq⟩ := hm.one r0
  refine ⟨s, fun F => ?_⟩
  rw [Finset.sum_eq_single s]
  · rw [hs2, one_mul]
  · intro r hr hne
    rcases hm.zeroOne r with h0 | h1
    · rw [h0, zero_mul]
    · exfalso
      apply hne
      refine huniq r ⟨?_, h1⟩
      rw [Finset.mem_filter] at hr
      rw [hr.2, ← hr0]
  · intro hs
    exfalso
    apply hs
    rw [Finset.mem_filter]
    exact ⟨Finset.mem_univ _, by rw [hs1, ← hr0]⟩

theorem sum_log_marked {df : Frame ℝ} {obsCol c : String} (hm : MarksChoices df obsCol c)
    (P : Fin df.numRows → ℝ) :
    ∑ o, Real.log (∑ r with df.val obsCol r = (originalOrderUniqueIds (df.colList obsCol)).get o,
      df.val c r * P r) = dataLogLik df c P := by
  have h1 : ∀ o, Real.log (∑ r with df.val obsCol r = (originalOrderUniqueIds (df.colList obsCol)).get o,
      df.val c r * P r) =
      ∑ r with df.val obsCol r = (originalOrderUniqueIds (df.colList obsCol)).get o,
        df.val c r * Real.log (P r) := by
    intro o
    obtain ⟨s, hs⟩ := sum_marked hm o
    rw [hs P, hs fun r => Real.log (P r)]
  simp only [h1]
  rw [dataLogLik]
  simp only [Finset.sum_filter]
  rw [Finset.sum_comm]
  refine Finset.sum_congr rfl fun r _ => ?_
  obtain ⟨f, -, hf⟩ := df.rowsToObs_indicates obsCol
  rw [Finset.sum_eq_single (f r)]
  · rw [if_pos ((hf r (f r)).1 rfl)]
  · intro o _ ho
    rw [if_neg fun h => ho ((hf r o).2 h).symm]
  · simp

theorem logSums_chosenParts2 {df : Frame ℝ} {obsCol c : String} (hm : MarksChoices df obsCol c)
    (h : ColArr df.numRows) :
    logSums (chosenParts2 (df.rowsToObs obsCol) h (df.val c)) =
      List.ofFn fun e => dataLogLik df c (clippedLogit (df.val obsCol) fun r => h.val r e) := by
  unfold logSums chosenParts2
  congr 1
  funext e
  rw [← sum_log_marked hm]
  simp only [chosenProbs_frame]

/-! ## Slicing the table of replicates -/

theorem paramListLoop_groups {W : Type} (g : Groups W) :
    paramListLoop g.flat [g.nests.length, g.shapes.length, g.intercepts.length, g.index.length] 0 [] =
      [orNone g.index, orNone g.intercepts, orNone g.shapes, orNone g.nests] := by
  let nm : ℕ → List String := fun k => List.replicate k ""
  have := param_list_for_prediction
    (⟨nm g.index.length, some (nm g.intercepts.length), some (nm g.shapes.length),
      some (nm g.nests.length), none⟩ : NameAttrs) g (by constructor <;> simp [nm])
  simpa [getParamListForPrediction, numNames, nm] using this

theorem replicateParams_ok {W : Type} {m : ChoiceModel ℝ} {g : Groups W} (hg : ReplicatesFor m g)
    (hne : g.index ≠ []) : replicateParams m g.flat = .ok (groupArrays g) := by
  unfold replicateParams
  rw [← hg.nests, ← hg.shapes, ← hg.intercepts, ← hg.index, paramListLoop_groups]
  have : orNone g.index = some g.index := by simp [orNone, hne]
  rw [this]
  rfl

theorem checkNumRows_orNone {W : Type} {l : List W} {k : ℕ} (h : l.length = k) :
    checkNumRows (orNone l) k = .ok () := by
  unfold orNone
  split_ifs
  · rfl
  · simp [checkNumRows, h]

theorem checkList_ok {W : Type} {m : ChoiceModel ℝ} {g : Groups W} (hg : ReplicatesFor m g) :
    checkParamListValidity m (groupArrays g) = .ok () := by
  have h0 : checkNumRows (some g.index) m.indVarNames.length = .ok () := by
    simp [checkNumRows, hg.index]
  simp only [checkParamListValidity, groupArrays, h0, checkNumRows_orNone hg.intercepts,
    checkNumRows_orNone hg.shapes, checkNumRows_orNone hg.nests, bind, Except.bind]

theorem predictChecks_ok {W : Type} {m : ChoiceModel ℝ} {df : Frame ℝ} {s : List (String × SpecVal ℝ)}
    {alts : List ℝ} (hp : Predictable m df s alts) {g : Groups W} (hg : ReplicatesFor m g) (rl : Bool)
    (c : String) : predictChecks m df (some (groupArrays g)) rl (some c) = .ok () := by
  have h1 : ensureColumnsInDataframe [m.args.altIdCol] df = .ok () :=
    ensureColumns_ok.2 (by simpa using hp.altCol)
  have h2 : ensureColumnsInDataframe [m.args.obsIdCol] df = .ok () :=
    ensureColumns_ok.2 (by simpa using hp.obsCol)
  simp only [predictChecks, h1, h2, hp.noMix, checkList_ok hg, bind, Except.bind]
  rw [if_neg (by simp)]

theorem designDot2_ok {df : Frame ℝ} {altCol : String} {ds : List (ColDesc ℝ)} {beta : List (Fin d → ℝ)}
    (h : beta.length = ds.length) :
    designDot2 (ds.map fun d => d.value df altCol) beta =
      .ok fun r e => rowIndex df altCol ds (beta.map fun x => x e) r := by
  rw [designDot2, if_neg (by simp [h])]
  congr 1
  funext r e
  rw [rowIndex, List.zip_map_left, List.zip_map_right, List.map_map, List.map_map]
  rfl

theorem predictFrame2_eq {env : Env ℝ} {m : ChoiceModel ℝ} {s : List (String × SpecVal ℝ)} {alts : List ℝ}
    {df : Frame ℝ} (hp : Predictable m df s alts) {g : Groups (Fin d → ℝ)} (hg : ReplicatesFor m g)
    (hm : MarksChoices df m.args.obsIdCol m.args.choiceCol) :
    predictFrame2 env m df (groupArrays g) m.args.choiceCol =
      (predictTransform2 m.cls (df.rowsToAlts m.args.altIdCol) m.args.interceptRefPos m.args.shapeRefPos
        (groupArrays g) fun r e => rowIndex df m.args.altIdCol (specColumns alts s)
          (column (groupArrays g) e).index r).map fun h =>
        List.ofFn fun e => dataLogLik df m.args.choiceCol
          (clippedLogit (df.val m.args.obsIdCol) fun r => h.val r e) := by
  have hd := design_success env.fmt env.fmtList df s m.args.altIdCol alts hp.isAlts hp.altCol hp.vars
    hp.valid hp.nonempty
  have hspec : m.args.specification = encodeAll s := hp.spec
  rw [← hspec, ← hp.names] at hd
  have hc : choiceArray df (some m.args.choiceCol) = .ok (some (df.val m.args.choiceCol)) :=
    choiceArray_ok.2 ⟨by simpa using hp.choiceCol, rfl⟩
  have hv := designDot2_ok (df := df) (altCol := m.args.altIdCol) (ds := specColumns alts s)
    (beta := g.index) (hg.index.trans hp.count)
  have e1 : (groupArrays g).index = g.index := rfl
  have e2 : specColumns alts s = s.flatMap fun kv => kv.2.columns alts kv.1 := rfl
  rw [e2] at hv
  simp only [predictFrame2, predictChecks_ok hp hg, hd, hc, bind, Except.bind, e1, hv]
  have e3 : ∀ e, (column (groupArrays g) e).index = g.index.map fun x => x e := fun _ => rfl
  simp only [e3, e2]
  generalize predictTransform2 _ _ _ _ _ _ = t
  cases t with
  | error e => rfl
  | ok h => simp only [Except.map, logSums_chosenParts2 hm]

theorem index_ne_nil {W : Type} {m : ChoiceModel ℝ} {s : List (String × SpecVal ℝ)} {alts : List ℝ}
    {df : Frame ℝ} (hp : Predictable m df s alts) {g : Groups W} (hg : ReplicatesFor m g) :
    g.index ≠ [] := by
  rw [← List.length_pos_iff, hg.index, hp.count, List.length_pos_iff]
  exact hp.nonempty

/-- Everything but the transformation: the list of log-likelihoods has an entry per column of the transformed
utilities, and that entry is the log-likelihood of the (clipped) logit probabilities of the column. -/
theorem replicateLikes_eq {env : Env ℝ} {m : ChoiceModel ℝ} {s : List (String × SpecVal ℝ)} {alts : List ℝ}
    {df : Frame ℝ} (hdf : df = addIntercept m.args.specification m.data) (hp : Predictable m df s alts)
    {g : Groups (Fin d → ℝ)} (hg : ReplicatesFor m g)
    (hm : MarksChoices df m.args.obsIdCol m.args.choiceCol) :
    replicateLikes env m g.flat =
      (predictTransform2 m.cls (df.rowsToAlts m.args.altIdCol) m.args.interceptRefPos m.args.shapeRefPos
        (groupArrays g) fun r e => rowIndex df m.args.altIdCol (specColumns alts s)
          (column (groupArrays g) e).index r).map fun h =>
        List.ofFn fun e => dataLogLik df m.args.choiceCol
          (clippedLogit (df.val m.args.obsIdCol) fun r => h.val r e) := by
  rw [← predictFrame2_eq hp hg hm]
  simp only [replicateLikes, replicateParams_ok hg (index_ne_nil hp hg), bind, Except.bind]
  subst hdf
  rfl

/-! ## The transformations -/

theorem mappingDot2_map {df : Frame ℝ} {col : String} {alts : List ℝ} (ha : AltsOf df col alts)
    (g : Fin d → ℝ → ℝ) :
    mappingDot2 (df.rowsToAlts col) (alts.map fun a e => g e a) = .ok fun r e => g e (df.val col r) := by
  have e := altsOf_eq ha
  rw [mappingDot2, if_neg (by simp [e])]
  congr 1
  funext r i
  have := mappingDot_map ha (g i)
  rw [mappingDot, if_neg (by simp [e])] at this
  have := congrFun (Except.ok.inj this) r
  rw [← this]
  congr 1
  funext j
  simp only [List.getD_eq_getElem?_getD, List.getElem?_map]
  cases alts[j.val]? <;> rfl

theorem listsOthers_all {alts : List ℝ} {ref : PyRef} {q : Fin d → ℝ → ℝ} {x : List (Fin d → ℝ)}
    (hd : 0 < d) (h : ∀ e, ListsOthers alts ref (q e) (x.map fun y => y e)) :
    ∃ (z : ℕ) (hz : z < alts.length), ref = .int z ∧ x = (alts.eraseIdx z).map (fun a e => q e a) ∧
      ∀ e, q e alts[z] = 0 := by
  obtain ⟨z, hz, hr, -, -⟩ := h ⟨0, hd⟩
  have hall : ∀ e, (x.map fun y => y e) = (alts.eraseIdx z).map (q e) ∧ q e alts[z] = 0 := by
    intro e
    obtain ⟨z', hz', hr', hx', h0'⟩ := h e
    have : z' = z := by
      rw [hr] at hr'
      injection hr' with hr'
      exact_mod_cast hr'.symm
    subst this
    exact ⟨hx', h0'⟩
  refine ⟨z, hz, hr, ?_, fun e => (hall e).2⟩
  have hlen : x.length = (alts.eraseIdx z).length := by
    have := congrArg List.length (hall ⟨0, hd⟩).1
    simpa using this
  refine List.ext_getElem (by simpa using hlen) fun i h1 h2 => ?_
  funext e
  have h3 := (hall e).1
  have h4 := congrArg (fun l => l[i]?) h3
  simp only [List.getElem?_map, List.getElem?_eq_getElem h1, Option.map_some] at h4
  rw [List.getElem?_eq_getElem (by simpa using h2)] at h4
  simpa using h4

theorem eraseIdx_length_succ {α : Type} {l : List α} {z : ℕ} (hz : z < l.length) :
    (l.eraseIdx z).length + 1 = l.length := by
  simp [List.length_eraseIdx, hz]; omega

theorem interceptTerm2_ok {cls : ModelType} {df : Frame ℝ} {col : String} {alts : List ℝ}
    (ha : AltsOf df col alts) (hd : 2 ≤ d) {ref : PyRef} {x : List (Fin d → ℝ)} {q : Fin d → ℝ → ℝ}
    (h : ∀ e, ListsOthers alts ref (q e) (x.map fun y => y e)) :
    interceptTerm2 cls (df.rowsToAlts col) ref (some x) =
      .ok (some (.mat fun r e => q e (df.val col r))) := by
  obtain ⟨z, hz, rfl, rfl, h0⟩ := listsOthers_all (by omega) h
  have e := altsOf_eq ha
  have hlen : (if cls = .scobit then ((alts.eraseIdx z).map (fun a (e : Fin d) => q e a)).length + 1
      else (npSort (npUnique (df.colList col))).length) = alts.length := by
    rw [e]
    split_ifs
    · rw [List.length_map, eraseIdx_length_succ hz]
    · rfl
  simp only [interceptTerm2, hlen, removeRef_ok hz, bind, Except.bind]
  rw [if_pos (by omega)]
  have hs := scatter_listsOthers (W := Fin d → ℝ) (q := fun a e => q e a) hz (funext h0)
  have : scatter (npSort (npUnique (df.colList col))).length ((List.range alts.length).eraseIdx z)
      ((alts.eraseIdx z).map fun a (e : Fin d) => q e a) = .ok (alts.map fun a e => q e a) := by
    rw [e]; exact hs
  simp only [this, mappingDot2_map ha]

theorem etaTerm2_ok {df : Frame ℝ} {col : String} {alts : List ℝ}
    (ha : AltsOf df col alts) (hd : 2 ≤ d) {ref : PyRef} {x : List (Fin d → ℝ)} {q : Fin d → ℝ → ℝ}
    (h : ∀ e, ListsOthers alts ref (q e) (x.map fun y => y e)) :
    etaTerm2 (df.rowsToAlts col) ref x = .ok (.mat fun r e =>
      Real.exp (q e (df.val col r)) / (alts.map fun b => Real.exp (q e b)).sum) := by
  obtain ⟨z, hz, rfl, rfl, h0⟩ := listsOthers_all (by omega) h
  have hlen : ((alts.eraseIdx z).map (fun a (e : Fin d) => q e a)).length + 1 = alts.length := by
    rw [List.length_map, eraseIdx_length_succ hz]
  have hexp : ((alts.eraseIdx z).map (fun a (e : Fin d) => q e a)).map
      (fun x e => if Real.exp (x e) = 0 then minCompValue else Real.exp (x e)) =
      (alts.eraseIdx z).map fun a e => Real.exp (q e a) := by
    rw [List.map_map]
    refine List.map_congr_left fun a _ => ?_
    simp [Real.exp_ne_zero]
  have hsum : (fun e => (((alts.eraseIdx z).map fun a (e : Fin d) => Real.exp (q e a)).map
        fun x => x e).sum + 1) =
      fun e => (alts.map fun b => Real.exp (q e b)).sum := by
    funext e
    have hp := (List.getElem_cons_eraseIdx_perm hz).map fun a => Real.exp (q e a)
    have := hp.sum_eq
    rw [← this]
    simp [h0, add_comm, Function.comp_def]
  simp only [etaTerm2, hlen, removeRef_ok hz, hexp, bind, Except.bind]
  rw [if_pos (by omega)]
  set S : Fin d → ℝ := fun e => (alts.map fun b => Real.exp (q e b)).sum with hS
  have hsum' : ∀ e, (((alts.eraseIdx z).map fun a (e : Fin d) => Real.exp (q e a)).map
        fun x => x e).sum + 1 = S e := fun e => congrFun hsum e
  simp only [hsum']
  rw [List.map_map]
  have hsc := scatter_others hz alts rfl
    ((fun (x : Fin d → ℝ) e => x e / S e) ∘ fun a e => Real.exp (q e a))
  rw [hsc]
  simp only [Int.toNat_natCast]
  have hset : ((List.range alts.length).map fun j => if j = z then (0 : Fin d → ℝ) else
      ((fun (x : Fin d → ℝ) e => x e / S e) ∘ fun a e => Real.exp (q e a)) (alts.getD j 0)).set z
        (fun e => 1 / S e) = alts.map fun a e => Real.exp (q e a) / S e := by
    refine List.ext_getElem (by simp) fun i h1 h2 => ?_
    have hi : i < alts.length := by simpa using h2
    rw [List.getElem_set]
    simp only [List.getElem_map, List.getElem_range, List.getD_eq_getElem?_getD,
      List.getElem?_eq_getElem hi, Option.getD_some, Function.comp_def]
    split_ifs with hzi
    · subst hzi
      funext e
      rw [h0, Real.exp_zero]
    · exact absurd (by omega) hzi
    · rfl
  rw [hset]
  rw [mappingDot2_map ha fun e a => Real.exp (q e a) / S e]

/-- The one-dimensional transformation of a single replicate, row by row. -/
theorem rowUtility_of_transform {cls : ModelType} {df : Frame ℝ} {col : String} {alts : List ℝ}
    (ha : AltsOf df col alts) (h2 : cls = .asym → 2 ≤ alts.length) {icptRef shapeRef : PyRef}
    {p : ParamArrays} {q : AltParams} (hp : HoldsFor cls alts icptRef shapeRef p q)
    (v : Fin df.numRows → ℝ) {h : Fin df.numRows → ℝ}
    (ht : predictTransform cls (df.rowsToAlts col) icptRef shapeRef p v = .ok h) (r : Fin df.numRows) :
    h r = rowUtility cls alts q (df.val col r) (v r) := by
  rw [transform_ok ha h2 hp] at ht
  rw [← Except.ok.inj ht]

theorem interceptTerm_col {cls : ModelType} {df : Frame ℝ} {col : String} {alts : List ℝ}
    (ha : AltsOf df col alts) {icptRef shapeRef : PyRef} {p : ParamArrays} {q : AltParams}
    (hp : HoldsFor cls alts icptRef shapeRef p q) (c : ModelType) :
    interceptTerm c (df.rowsToAlts col) icptRef p.intercepts = .ok fun r => q.icpt (df.val col r) := by
  cases hx : p.intercepts with
  | none =>
    have : (fun r => q.icpt (df.val col r)) = fun _ => 0 := by
      funext r; exact hp.noIcpt hx _ ((ha.mem _).2 ⟨r, rfl⟩)
    rw [this]
    cases icptRef <;> rfl
  | some x => exact interceptTerm_ok ha (hp.icpt x hx)

theorem interceptTerm2_none {cls : ModelType} {n m : ℕ} {rta : Matrix (Fin n) (Fin m) ℝ} {ref : PyRef} :
    interceptTerm2 (d := d) cls rta ref none = .ok none := by
  cases ref <;> rfl

/-- The transformation treats the columns as replicates whenever the shapes of the arrays let it. -/
theorem transform2_ok {cls : ModelType} {df : Frame ℝ} {col : String} {alts : List ℝ}
    (ha : AltsOf df col alts) (h2 : cls = .asym → 2 ≤ alts.length) {icptRef shapeRef : PyRef}
    {p : ParamArraysOf (Fin d → ℝ)} {q : Fin d → AltParams} (hd : 0 < d)
    (hp : ∀ e, HoldsFor cls alts icptRef shapeRef (column p e) (q e))
    (hc : ColumnwiseFor cls (p.intercepts ≠ none) d df.numRows) (v : Fin df.numRows → Fin d → ℝ) :
    predictTransform2 cls (df.rowsToAlts col) icptRef shapeRef p v =
      .ok ⟨d, fun r e => rowUtility cls alts (q e) (df.val col r) (v r e)⟩ := by
  have e := altsOf_eq ha
  -- the intercepts
  have hi2 : 2 ≤ d → p.intercepts ≠ none → ∀ c, interceptTerm2 c (df.rowsToAlts col) icptRef p.intercepts =
      .ok (some (.mat fun r e => (q e).icpt (df.val col r))) := by
    intro hd2 hne c
    obtain ⟨x, hx⟩ := Option.ne_none_iff_exists'.1 hne
    rw [hx]
    refine interceptTerm2_ok ha hd2 fun e => ?_
    exact (hp e).icpt (x.map fun y => y e) (by simp [column, hx])
  have hi0 : p.intercepts = none → ∀ e r, (q e).icpt (df.val col r) = 0 := by
    intro hn e r
    exact (hp e).noIcpt (by simp [column, hn]) _ ((ha.mem _).2 ⟨r, rfl⟩)
  -- the shapes
  have hsh : cls = .scobit ∨ cls = .uneven → shapeTerm2 (df.rowsToAlts col) p.shapes =
      .ok fun r e => Real.exp ((q e).shape (df.val col r)) := by
    intro hcls
    have hs : ∃ x, p.shapes = some x := by
      have := (hp ⟨0, hd⟩).shape hcls
      simp only [column] at this
      cases hx : p.shapes with
      | none => simp [hx] at this
      | some x => exact ⟨x, rfl⟩
    obtain ⟨x, hx⟩ := hs
    have hcol : ∀ e, (x.map fun y => y e) = alts.map (q e).shape := by
      intro e
      have := (hp e).shape hcls
      simpa [column, hx] using this
    have hxx : x = alts.map fun a e => (q e).shape a := by
      have hlen : x.length = alts.length := by simpa using congrArg List.length (hcol ⟨0, hd⟩)
      refine List.ext_getElem (by simpa using hlen) fun i h1 h2 => ?_
      funext e
      have h4 := congrArg (fun l => l[i]?) (hcol e)
      simp only [List.getElem?_map, List.getElem?_eq_getElem h1, Option.map_some] at h4
      rw [List.getElem?_eq_getElem (by simpa using h2)] at h4
      simpa using h4
    rw [hx, shapeTerm2, hxx, List.map_map]
    exact mappingDot2_map ha fun e a => Real.exp ((q e).shape a)
  -- the transformation of a replicate
  have hcol : ∀ e, predictTransform cls (df.rowsToAlts col) icptRef shapeRef (column p e)
      (fun r => v r e) = .ok fun r => rowUtility cls alts (q e) (df.val col r) (v r e) :=
    fun e => transform_ok ha h2 (hp e) _
  have hint := fun e => interceptTerm_col ha (hp e)
  cases cls with
  | cloglog =>
    have hrow : ∀ e r, clogH (v r e) + (q e).icpt (df.val col r) =
        rowUtility .cloglog alts (q e) (df.val col r) (v r e) := by
      intro e r
      have := hcol e
      simp only [predictTransform, hint e, bind, Except.bind] at this
      exact congrFun (Except.ok.inj this) r
    simp only [predictTransform2]
    by_cases hn : p.intercepts = none
    · rw [hn, interceptTerm2_none]
      simp only [bind, Except.bind, addIntercepts, ← hrow, hi0 hn, add_zero]
    · have hd2 : 2 ≤ d := by
        rcases hc with h | h
        · exact h
        · exact absurd hn h
      rw [hi2 hd2 hn]
      simp [bind, Except.bind, addIntercepts, inplaceAdd, ← hrow]
  | uneven =>
    have hrow : ∀ e r, unevenH (Real.exp ((q e).shape (df.val col r))) (v r e) +
        (q e).icpt (df.val col r) = rowUtility .uneven alts (q e) (df.val col r) (v r e) := by
      intro e r
      have := hcol e
      simp only [predictTransform, hint e, shapeTerm, (hp e).shape (Or.inr rfl), reduceCtorEq, if_false,
        List.map_map, mappingDot_map ha, bind, Except.bind] at this
      exact congrFun (Except.ok.inj this) r
    simp only [predictTransform2, hsh (Or.inr rfl)]
    by_cases hn : p.intercepts = none
    · rw [hn, interceptTerm2_none]
      simp only [bind, Except.bind, addIntercepts, ← hrow, hi0 hn, add_zero]
    · have hd2 : 2 ≤ d := by
        rcases hc with h | h
        · exact h
        · exact absurd hn h
      rw [hi2 hd2 hn]
      simp [bind, Except.bind, addIntercepts, inplaceAdd, ← hrow]
  | scobit =>
    have hrow : ∀ e r, (q e).icpt (df.val col r) + scobitH (Real.exp ((q e).shape (df.val col r))) (v r e) =
        rowUtility .scobit alts (q e) (df.val col r) (v r e) := by
      intro e r
      have := hcol e
      simp only [predictTransform, hint e, shapeTerm, (hp e).shape (Or.inl rfl), reduceCtorEq, if_false,
        List.map_map, mappingDot_map ha, bind, Except.bind] at this
      exact congrFun (Except.ok.inj this) r
    simp only [predictTransform2, hsh (Or.inl rfl)]
    rcases hc with ⟨hn, hd2⟩ | ⟨hn, hdn⟩
    · rw [hi2 hd2 hn]
      simp [bind, Except.bind, broadcast, ← hrow]
    · rw [not_not] at hn
      rw [hn, interceptTerm2_none]
      simp [bind, Except.bind, broadcast, hdn, ← hrow, hi0 hn]
  | asym =>
    have hd2 : 2 ≤ d := hc
    have hs : ∃ x, p.shapes = some x := by
      obtain ⟨y, hy, -⟩ := (hp ⟨0, hd⟩).eta rfl
      simp only [column] at hy
      cases hx : p.shapes with
      | none => simp [hx] at hy
      | some x => exact ⟨x, rfl⟩
    obtain ⟨x, hx⟩ := hs
    have hl : ∀ e, ListsOthers alts shapeRef (q e).shape (x.map fun y => y e) := by
      intro e
      obtain ⟨y, hy, hl⟩ := (hp e).eta rfl
      simp only [column, hx, Option.map_some, Option.some.injEq] at hy
      rw [hy]
      exact hl
    have hrow : ∀ e r, asymH alts.length (Real.exp ((q e).shape (df.val col r)) /
          (alts.map fun b => Real.exp ((q e).shape b)).sum) (v r e) + (q e).icpt (df.val col r) =
        rowUtility .asym alts (q e) (df.val col r) (v r e) := by
      intro e r
      have := hcol e
      have hsh' : (column p e).shapes = some (x.map fun y => y e) := by simp [column, hx]
      simp only [predictTransform, hint e, shapeTerm, hsh', if_true, etaToC_ok (hl e),
        mappingDot_map ha, bind, Except.bind] at this
      rw [← congrFun (Except.ok.inj this) r, altsOf_eq ha]
    simp only [predictTransform2, hx, etaTerm2_ok ha hd2 hl, bind, Except.bind, broadcast]
    by_cases hn : p.intercepts = none
    · rw [hn, interceptTerm2_none]
      simp only [addIntercepts, ← hrow, hi0 hn, add_zero, e]
    · rw [hi2 hd2 hn]
      simp [addIntercepts, inplaceAdd, ← hrow, e]
  | mnl => rfl
  | nested => rfl
  | mixed => rfl

/-! ## C74 -/

/-- **C74** for the logit-type models, when the columns are treated as replicates (see `ColumnwiseFor`: two or
more replicates always are, except by the Scobit model without outside intercepts).  Let each replicate hold,
in estimator order, the parameters of the alternatives of the data.  The result has one number per replicate:
the log-likelihood of the data at that replicate's parameters. -/
theorem replicate_likes_partial (env : Env ℝ) (m : ChoiceModel ℝ) {s : List (String × SpecVal ℝ)}
    {alts : List ℝ} {df : Frame ℝ} (hdf : df = addIntercept m.args.specification m.data)
    (hp : Predictable m df s alts) (hasym : m.cls = .asym → 2 ≤ alts.length)
    (hm : MarksChoices df m.args.obsIdCol m.args.choiceCol)
    (hd : 0 < d) (g : Groups (Fin d → ℝ)) (hg : ReplicatesFor m g) (q : Fin d → AltParams)
    (hq : ∀ e, HoldsFor m.cls alts m.args.interceptRefPos m.args.shapeRefPos
      (column (groupArrays g) e) (q e))
    (hc : ColumnwiseFor m.cls (g.intercepts ≠ []) d df.numRows) :
    replicateLikes env m g.flat = .ok (List.ofFn fun e =>
      dataLogLik df m.args.choiceCol (clippedLogit (df.val m.args.obsIdCol) fun r =>
        rowUtility m.cls alts (q e) (df.val m.args.altIdCol r)
          (rowIndex df m.args.altIdCol (specColumns alts s) (g.index.map fun x => x e) r))) := by
  have hc' : ColumnwiseFor m.cls ((groupArrays g).intercepts ≠ none) d df.numRows := by
    have : ((groupArrays g).intercepts ≠ none) = (g.intercepts ≠ []) := by
      simp [groupArrays, orNone]
    rw [this]
    exact hc
  rw [replicateLikes_eq hdf hp hg hm, transform2_ok hp.isAlts hasym hd hq hc']
  rfl

/-! ### What is missing: the shapes of the arrays -/

/-- The Scobit model without outside intercepts cannot compute the log-likelihoods of its replicates, unless
there is a single one, or a single row of data, or as many replicates as rows of data. -/
theorem replicate_likes_scobit_refused (env : Env ℝ) (m : ChoiceModel ℝ) {s : List (String × SpecVal ℝ)}
    {alts : List ℝ} {df : Frame ℝ} (hdf : df = addIntercept m.args.specification m.data)
    (hp : Predictable m df s alts) (hm : MarksChoices df m.args.obsIdCol m.args.choiceCol)
    (g : Groups (Fin d → ℝ)) (hg : ReplicatesFor m g) (hcls : m.cls = .scobit)
    (hicpt : g.intercepts = []) (hshape : g.shapes.length = alts.length) (hpos : alts ≠ [])
    (h1 : d ≠ 1) (hn : d ≠ df.numRows) (hr : df.numRows ≠ 1) :
    replicateLikes env m g.flat = .error .valueError := by
  have e := altsOf_eq hp.isAlts
  have hne : g.shapes ≠ [] := by
    rw [← List.length_pos_iff, hshape, List.length_pos_iff]; exact hpos
  have hs : (groupArrays g).shapes = some g.shapes := by simp [groupArrays, orNone, hne]
  have hi : (groupArrays g).intercepts = none := by simp [groupArrays, orNone, hicpt]
  rw [replicateLikes_eq hdf hp hg hm, hcls]
  have hsh : ∃ c, shapeTerm2 (df.rowsToAlts m.args.altIdCol) (groupArrays g).shapes = .ok c := by
    rw [hs, shapeTerm2, mappingDot2, if_neg (by simp [e, hshape])]
    exact ⟨_, rfl⟩
  obtain ⟨c, hc⟩ := hsh
  simp only [predictTransform2, hi, interceptTerm2_none, hc, bind, Except.bind, Option.getD_none, broadcast,
    dif_neg h1, dif_neg hn, dif_neg hr, Except.map]

/-- With a single replicate the Scobit model without outside intercepts returns the log-likelihood as many
times as there are rows of data. -/
theorem replicate_likes_scobit_one (env : Env ℝ) (m : ChoiceModel ℝ) {s : List (String × SpecVal ℝ)}
    {alts : List ℝ} {df : Frame ℝ} (hdf : df = addIntercept m.args.specification m.data)
    (hp : Predictable m df s alts) (hm : MarksChoices df m.args.obsIdCol m.args.choiceCol)
    (g : Groups (Fin 1 → ℝ)) (hg : ReplicatesFor m g) (hcls : m.cls = .scobit) (hicpt : g.intercepts = [])
    (q : AltParams) (hq : HoldsFor .scobit alts m.args.interceptRefPos m.args.shapeRefPos
      (column (groupArrays g) 0) q) :
    replicateLikes env m g.flat = .ok (List.replicate df.numRows
      (dataLogLik df m.args.choiceCol (clippedLogit (df.val m.args.obsIdCol) fun r =>
        rowUtility .scobit alts q (df.val m.args.altIdCol r)
          (rowIndex df m.args.altIdCol (specColumns alts s) (g.index.map fun x => x 0) r)))) := by
  have hi : (groupArrays g).intercepts = none := by simp [groupArrays, orNone, hicpt]
  have hq' : ∀ e, HoldsFor .scobit alts m.args.interceptRefPos m.args.shapeRefPos
      (column (groupArrays g) e) q := by
    intro e
    rw [Subsingleton.elim e 0]
    exact hq
  set v : Fin df.numRows → Fin 1 → ℝ := fun r e => rowIndex df m.args.altIdCol (specColumns alts s)
    (column (groupArrays g) e).index r with hv
  obtain ⟨c, hc, hrow⟩ : ∃ c, shapeTerm2 (df.rowsToAlts m.args.altIdCol) (groupArrays g).shapes = .ok c ∧
      ∀ r, scobitH (c r 0) (v r 0) = rowUtility .scobit alts q (df.val m.args.altIdCol r) (v r 0) := by
    have hs : (column (groupArrays g) 0).shapes = some (alts.map q.shape) := hq.shape (Or.inl rfl)
    have ht := transform_ok (cls := .scobit) hp.isAlts (by simp) hq fun r => v r 0
    simp only [predictTransform, interceptTerm_col hp.isAlts hq, shapeTerm, hs, reduceCtorEq, if_false,
      List.map_map, mappingDot_map hp.isAlts, bind, Except.bind] at ht
    have ht' := fun r => congrFun (Except.ok.inj ht) r
    have h0 : ∀ r, q.icpt (df.val m.args.altIdCol r) = 0 := fun r =>
      hq.noIcpt (by simp [column, hi]) _ ((hp.isAlts.mem _).2 ⟨r, rfl⟩)
    obtain ⟨x, hx⟩ : ∃ x, (groupArrays g).shapes = some x := by
      cases hx : (groupArrays g).shapes with
      | none => simp [column, hx] at hs
      | some x => exact ⟨x, rfl⟩
    have hxx : x = alts.map fun a (_ : Fin 1) => q.shape a := by
      simp only [column, hx, Option.map_some, Option.some.injEq] at hs
      have := congrArg (List.map fun y => fun _ : Fin 1 => y) hs
      simp only [List.map_map, Function.comp_def] at this
      rw [← this]
      refine (List.map_id x).symm.trans (List.map_congr_left fun y _ => ?_)
      funext e
      rw [Subsingleton.elim e 0]
      rfl
    refine ⟨fun r _ => Real.exp (q.shape (df.val m.args.altIdCol r)), ?_, fun r => ?_⟩
    · rw [hx, shapeTerm2, hxx, List.map_map]
      exact mappingDot2_map hp.isAlts fun _ a => Real.exp (q.shape a)
    · rw [← ht' r, h0, zero_add]
      rfl
  have hcol : ∀ e, (column (groupArrays g) e).index = g.index.map fun x => x e := fun _ => rfl
  rw [replicateLikes_eq hdf hp hg hm, hcls]
  simp only [predictTransform2, hi, interceptTerm2_none, hc, bind, Except.bind, Option.getD_none]
  have hfin : ∀ k, (List.ofFn fun _ : Fin k => dataLogLik df m.args.choiceCol
      (clippedLogit (df.val m.args.obsIdCol) fun r => 0 + scobitH (c r 0) (v r 0))) =
      List.replicate k (dataLogLik df m.args.choiceCol (clippedLogit (df.val m.args.obsIdCol) fun r =>
        rowUtility .scobit alts q (df.val m.args.altIdCol r)
          (rowIndex df m.args.altIdCol (specColumns alts s) (g.index.map fun x => x 0) r))) := by
    intro k
    rw [List.ofFn_const]
    simp only [zero_add, hrow]
    rfl
  rw [← hfin]
  unfold broadcast
  simp only
  by_cases h1 : (1 : ℕ) = df.numRows
  · rw [dif_pos h1]
    have key : ∀ x : ℝ, List.replicate df.numRows x = List.ofFn fun _ : Fin 1 => x := by
      intro x
      rw [← h1]
      rfl
    rw [List.ofFn_const, key]
    simp only [Except.map, Except.ok.injEq]
    congr 1
    funext e
    rw [Subsingleton.elim e 0]
  · rw [dif_neg h1]
    simp only [dite_true, Except.map, Except.ok.injEq]
    rfl

theorem scatterSingle_error {m : ℕ} {idxs : List ℕ} {vals : List (Fin d → ℝ)} (hi : ∀ i ∈ idxs, i < m)
    (h : vals.length ≠ 1) : scatterSingle m idxs vals = .error .valueError := by
  unfold scatterSingle
  rw [if_neg (by push Not; exact hi)]
  match vals with
  | [] => rfl
  | [x] => exact absurd rfl h
  | _ :: _ :: _ => rfl

theorem removeRef_lt {m : ℕ} {ref : PyRef} {l : List ℕ} (h : removeRef m ref = .ok l) :
    ∀ i ∈ l, i < m := by
  unfold removeRef at h
  split at h
  · split_ifs at h
    cases h
    intro i hi
    rw [List.mem_filter, List.mem_range] at hi
    exact hi.1
  · cases h

theorem interceptTerm2_single_error {cls : ModelType} {n m : ℕ} {rta : Matrix (Fin n) (Fin m) ℝ} {z : ℕ}
    (hz : z < m) {x : List (Fin 1 → ℝ)} (hx : x.length + 1 = m) (h1 : x.length ≠ 1) :
    interceptTerm2 cls rta (.int z) (some x) = .error .valueError := by
  have hm : (if cls = .scobit then x.length + 1 else m) = m := by rw [hx]; simp
  simp only [interceptTerm2, hm]
  have hr := removeRef_ok hz
  simp only [hr, bind, Except.bind]
  rw [if_neg (by omega), scatterSingle_error (removeRef_lt hr) h1]

/-- With a single replicate, outside intercepts of three or more alternatives make every model that can have
them fail. -/
theorem replicate_likes_one_intercepts_refused (env : Env ℝ) (m : ChoiceModel ℝ)
    {s : List (String × SpecVal ℝ)}
    {alts : List ℝ} {df : Frame ℝ} (hdf : df = addIntercept m.args.specification m.data)
    (hp : Predictable m df s alts) (hm : MarksChoices df m.args.obsIdCol m.args.choiceCol)
    (g : Groups (Fin 1 → ℝ)) (hg : ReplicatesFor m g)
    (hcls : m.cls = .cloglog ∨ m.cls = .scobit ∨ m.cls = .uneven)
    (h3 : 3 ≤ alts.length) {z : ℕ} (hz : z < alts.length) (href : m.args.interceptRefPos = .int z)
    (hicpt : g.intercepts.length + 1 = alts.length)
    (hshape : m.cls = .uneven → g.shapes.length = alts.length) :
    replicateLikes env m g.flat = .error .valueError := by
  have e := altsOf_eq hp.isAlts
  have hne : g.intercepts ≠ [] := by
    rw [← List.length_pos_iff]; omega
  have hi : (groupArrays g).intercepts = some g.intercepts := by simp [groupArrays, orNone, hne]
  have herr : ∀ c, interceptTerm2 c (df.rowsToAlts m.args.altIdCol) m.args.interceptRefPos
      (groupArrays g).intercepts = .error .valueError := by
    intro c
    rw [hi, href]
    refine interceptTerm2_single_error ?_ ?_ (by omega)
    · rw [e]; exact hz
    · rw [e]; exact hicpt
  rw [replicateLikes_eq hdf hp hg hm]
  rcases hcls with h | h | h
  · rw [h]; simp only [predictTransform2, herr, bind, Except.bind, Except.map]
  · rw [h]; simp only [predictTransform2, herr, bind, Except.bind, Except.map]
  · have hl := hshape h
    have hs : (groupArrays g).shapes = some g.shapes := by
      have : g.shapes ≠ [] := by rw [← List.length_pos_iff]; omega
      simp [groupArrays, orNone, this]
    have hsh : ∃ c, shapeTerm2 (df.rowsToAlts m.args.altIdCol) (groupArrays g).shapes = .ok c := by
      rw [hs, shapeTerm2, mappingDot2, if_neg (by simp [e, hl])]
      exact ⟨_, rfl⟩
    obtain ⟨c, hc⟩ := hsh
    rw [h]
    simp only [predictTransform2, hc, herr, bind, Except.bind, Except.map]

/-- With a single replicate and two alternatives, the intercept makes the Clog-log and uneven models fail
(unless the data has a single row). -/
theorem replicate_likes_one_intercept_refused (env : Env ℝ) (m : ChoiceModel ℝ)
    {s : List (String × SpecVal ℝ)}
    {alts : List ℝ} {df : Frame ℝ} (hdf : df = addIntercept m.args.specification m.data)
    (hp : Predictable m df s alts) (hm : MarksChoices df m.args.obsIdCol m.args.choiceCol)
    (g : Groups (Fin 1 → ℝ)) (hg : ReplicatesFor m g) (hcls : m.cls = .cloglog ∨ m.cls = .uneven)
    (h2 : alts.length = 2) {z : ℕ} (hz : z < 2) (href : m.args.interceptRefPos = .int z)
    (hicpt : g.intercepts.length = 1) (hshape : m.cls = .uneven → g.shapes.length = 2)
    (hr : df.numRows ≠ 1) :
    replicateLikes env m g.flat = .error .valueError := by
  have e := altsOf_eq hp.isAlts
  have hne : g.intercepts ≠ [] := by
    rw [← List.length_pos_iff]; omega
  have hi : (groupArrays g).intercepts = some g.intercepts := by simp [groupArrays, orNone, hne]
  have hterm : ∀ c, c ≠ .scobit → ∃ x, interceptTerm2 c (df.rowsToAlts m.args.altIdCol)
      m.args.interceptRefPos (groupArrays g).intercepts = .ok (some (.vec x)) := by
    intro c hc
    have hl : (npSort (npUnique (df.colList m.args.altIdCol))).length = 2 := by rw [e]; exact h2
    have hrm := removeRef_ok (m := (npSort (npUnique (df.colList m.args.altIdCol))).length) (z := z)
      (by omega)
    obtain ⟨y, hy⟩ := List.length_eq_one_iff.1 hicpt
    rw [hi, href, hy]
    simp only [interceptTerm2, hc, if_false, hrm, bind, Except.bind]
    rw [if_neg (by omega)]
    simp only [scatterSingle]
    rw [if_neg (by have := removeRef_lt hrm; push Not; exact this), dif_pos trivial]
    simp only [mappingDot]
    rw [if_neg (by simp)]
    exact ⟨_, rfl⟩
  have hadd : ∀ (b : Fin df.numRows → Fin 1 → ℝ) x,
      addIntercepts (d := 1) ⟨1, b⟩ (some (.vec x)) = .error .valueError := by
    intro b x
    simp only [addIntercepts, inplaceAdd]
    rw [dif_neg (fun h => hr h.symm), dif_neg hr]
  rw [replicateLikes_eq hdf hp hg hm]
  rcases hcls with h | h
  · rw [h]
    obtain ⟨x, hx⟩ := hterm .cloglog (by simp)
    simp only [predictTransform2, hx, bind, Except.bind, hadd, Except.map]
  · rw [h]
    have hl := hshape h
    have hs : (groupArrays g).shapes = some g.shapes := by
      have : g.shapes ≠ [] := by rw [← List.length_pos_iff]; omega
      simp [groupArrays, orNone, this]
    have hsh : ∃ c, shapeTerm2 (df.rowsToAlts m.args.altIdCol) (groupArrays g).shapes = .ok c := by
      rw [hs, shapeTerm2, mappingDot2, if_neg (by simp [e, hl, h2])]
      exact ⟨_, rfl⟩
    obtain ⟨c, hc⟩ := hsh
    obtain ⟨x, hx⟩ := hterm .uneven (by simp)
    simp only [predictTransform2, hc, hx, bind, Except.bind, hadd, Except.map]

/-- With a single replicate the asymmetric model fails for three or more alternatives. -/
theorem replicate_likes_one_asym_refused (env : Env ℝ) (m : ChoiceModel ℝ) {s : List (String × SpecVal ℝ)}
    {alts : List ℝ} {df : Frame ℝ} (hdf : df = addIntercept m.args.specification m.data)
    (hp : Predictable m df s alts) (hm : MarksChoices df m.args.obsIdCol m.args.choiceCol)
    (g : Groups (Fin 1 → ℝ)) (hg : ReplicatesFor m g) (hcls : m.cls = .asym)
    (h3 : 3 ≤ alts.length) {z : ℕ} (hz : z < alts.length) (href : m.args.shapeRefPos = .int z)
    (hshape : g.shapes.length + 1 = alts.length) :
    replicateLikes env m g.flat = .error .valueError := by
  have hne : g.shapes ≠ [] := by rw [← List.length_pos_iff]; omega
  have hs : (groupArrays g).shapes = some g.shapes := by simp [groupArrays, orNone, hne]
  rw [replicateLikes_eq hdf hp hg hm, hcls]
  have hr := removeRef_ok (m := g.shapes.length + 1) (z := z) (by omega)
  simp only [predictTransform2, hs, href, etaTerm2, hr, bind, Except.bind]
  rw [if_neg (by omega), scatterSingle_error (removeRef_lt hr) (by simp; omega)]
  rfl

/-! ### Nested logit -/

/-- The nested log-likelihood computed from the chosen probabilities of one replicate. -/
theorem predict_nested_likelihood {env : Env ℝ} {m : ChoiceModel ℝ} {s : List (String × SpecVal ℝ)}
    {alts : List ℝ} {df : Frame ℝ} (hp : Predictable m df s alts) {nestSpec : List (String × List ℝ)}
    (hm : MarksChoices df m.args.obsIdCol m.args.choiceCol)
    {gm : Fin df.numRows → Fin nestSpec.length}
    (hrtn : df.rowsToNests m.args.altIdCol nestSpec = .ok (Matrix.of fun r j => if gm r = j then 1 else 0))
    (stored : ParamArrays) (g : Groups ℝ) (hg : ReplicatesFor m g) (hne : g.nests ≠ [])
    (hnl : g.nests.length = nestSpec.length) :
    ∃ probs, predictNestedFrame env m nestSpec stored df (some (groupArrays g)) false
        (some m.args.choiceCol) = .ok (.chosen probs) ∧
      ∑ o, Real.log (probs o) = dataLogLik df m.args.choiceCol (nestedProb (df.val m.args.obsIdCol) gm
        (rowIndex df m.args.altIdCol (specColumns alts s) g.index)
        fun n => 1 / (1 + Real.exp (-(g.nests.getD n 0)))) := by
  have hd := design_success env.fmt env.fmtList df s m.args.altIdCol alts hp.isAlts hp.altCol hp.vars
    hp.valid hp.nonempty
  have hspec : m.args.specification = encodeAll s := hp.spec
  rw [← hspec, ← hp.names] at hd
  have hc : choiceArray df (some m.args.choiceCol) = .ok (some (df.val m.args.choiceCol)) :=
    choiceArray_ok.2 ⟨by simpa using hp.choiceCol, rfl⟩
  have e1 : (groupArrays g).index = g.index := rfl
  have e2 : (groupArrays g).nests = some g.nests := by simp [groupArrays, orNone, hne]
  set cols := (s.flatMap fun kv => kv.2.columns alts kv.1).map fun d => d.value df m.args.altIdCol
    with hcols
  have hlen : cols.length = g.index.length := by
    rw [hcols, List.length_map, hg.index, hp.count]; rfl
  simp only [predictNestedFrame, predictChecks_ok hp hg, hd, hc, hrtn, bind, Except.bind,
    Option.getD_some, e1, e2]
  rw [if_neg (by simp [hnl, hlen])]
  simp only [calcNestedProbs]
  refine ⟨_, by simp; rfl, ?_⟩
  rw [← sum_log_marked hm]
  refine Finset.sum_congr rfl fun o _ => ?_
  congr 1
  obtain ⟨f, hf, hiff⟩ := df.rowsToObs_indicates m.args.obsIdCol
  simp only [nestedChosenProbs, mulVec, dotProduct, transpose_apply, Matrix.of_apply]
  rw [Finset.sum_filter]
  refine Finset.sum_congr rfl fun r _ => ?_
  rw [hf r o]
  by_cases hro : f r = o
  · rw [if_pos hro, if_pos ((hiff r o).1 hro), one_mul]
    congr 1
    exact nestedLong_frame hcols hlen r
  · rw [if_neg hro, if_neg fun h => hro ((hiff r o).2 h), zero_mul, zero_mul]

/-- **C74** for the nested logit model, for any number of replicates: one number per replicate, the nested
logit log-likelihood of the data at its parameters. -/
theorem replicate_likes_nested (env : Env ℝ) (m : ChoiceModel ℝ) {s : List (String × SpecVal ℝ)}
    {alts : List ℝ} {df : Frame ℝ} (hdf : df = addIntercept m.args.specification m.data)
    (hp : Predictable m df s alts) (hm : MarksChoices df m.args.obsIdCol m.args.choiceCol)
    {nestSpec : List (String × List ℝ)} (hk : (nestSpec.map Prod.fst).Nodup)
    (hone : ∀ a ∈ alts, InOneNest nestSpec a) (hns : nestSpec ≠ []) (stored : ParamArrays)
    (hd : 0 < d) (g : Groups (Fin d → ℝ)) (hg : ReplicatesFor m g)
    (hnl : g.nests.length = nestSpec.length) :
    ∃ gm : Fin df.numRows → Fin nestSpec.length,
      (∀ r, df.val m.args.altIdCol r ∈ (nestSpec.get (gm r)).2) ∧
      replicateLikesNested env m nestSpec stored g.flat = .ok (List.ofFn fun e =>
        dataLogLik df m.args.choiceCol (nestedProb (df.val m.args.obsIdCol) gm
          (rowIndex df m.args.altIdCol (specColumns alts s) (g.index.map fun x => x e))
          fun n => 1 / (1 + Real.exp (-((g.nests.map fun x => x e).getD n 0))))) := by
  obtain ⟨gm, hgm, hrtn⟩ := frame_rowsToNests hp.isAlts hk hone
  refine ⟨gm, hgm, ?_⟩
  subst hdf
  have hstep : ∀ e : Fin d, nestedReplicateLike env m nestSpec stored
      (g.flat.map fun x : Fin d → ℝ => x e) = .ok (dataLogLik (addIntercept m.args.specification m.data)
        m.args.choiceCol (nestedProb ((addIntercept m.args.specification m.data).val m.args.obsIdCol) gm
          (rowIndex (addIntercept m.args.specification m.data) m.args.altIdCol (specColumns alts s)
            (g.index.map fun x : Fin d → ℝ => x e))
          fun n => 1 / (1 + Real.exp (-((g.nests.map fun x : Fin d → ℝ => x e).getD n 0))))) := by
    intro e
    let ge : Groups ℝ := ⟨g.nests.map fun x => x e, g.shapes.map fun x => x e,
      g.intercepts.map fun x => x e, g.index.map fun x => x e⟩
    have hflat : (g.flat.map fun x => x e) = ge.flat := by simp [Groups.flat, ge]
    have hge : ReplicatesFor m ge :=
      ⟨by simpa [ge] using hg.nests, by simpa [ge] using hg.shapes, by simpa [ge] using hg.intercepts,
        by simpa [ge] using hg.index⟩
    have hnes : ge.nests ≠ [] := by
      have : ge.nests.length = nestSpec.length := by simpa [ge] using hnl
      rw [← List.length_pos_iff, this, List.length_pos_iff]
      exact hns
    obtain ⟨probs, h1, h2⟩ := predict_nested_likelihood (env := env) hp hm hrtn stored ge hge hnes
      (by simpa [ge] using hnl)
    rw [hflat, nestedReplicateLike, replicateParams_ok hge (index_ne_nil hp hge)]
    simp only [bind, Except.bind, h1, h2]
    rfl
  have hmap := mapM_ok (l := List.finRange d) (fun e _ => hstep e)
  simp only [replicateLikesNested]
  rw [hmap]
  simp only [bind, Except.bind]
  rw [if_neg (by omega), ← List.ofFn_eq_map]

/-! ### Mixed logit -/

section Mixed

variable {R O M K D ι A : Type} [Fintype R] [DecidableEq R] [Fintype O] [DecidableEq O] [Fintype M]
  [DecidableEq M] [Fintype K] [DecidableEq K] [Fintype D]

/-- **C74** for the mixed logit model, without repeated choices: when every individual has exactly one
observation, the number of a replicate is its simulated log-likelihood. -/
theorem replicate_likes_mixed_partial [Nonempty R] [Nonempty D] {B : Matrix R O ℝ} {f : R → O}
    (hB : Indicates B f) {C : Matrix R M ℝ} {g : R → M} (hC : Indicates C g) (e : O ≃ M)
    (he : ∀ r, g r = e (f r)) (pos : List K) (mean : K → ℝ) (sd : Fin pos.length → ℝ) (X : Matrix R K ℝ)
    (ids : R → ι) (rta : Matrix R A ℝ) (drawList : List (M → D → ℝ)) (hlen : pos.length = drawList.length)
    (h0 : drawList ≠ []) {choice : R → ℝ} {c : O → R} (hc : OneChoice f choice c) :
    mixedReplicateLike pos (Sum.elim mean sd) X ids B rta C drawList choice =
      .ok (mixedLogLikelihood (Sum.elim mean sd)
        (expandedDesign X (fun j => drawList.get (j.cast hlen)) pos.get C) B C choice none none) := by
  have hy : ZeroOne choice := by
    intro r
    by_cases h : r = c (f r)
    · right; rw [h]; exact hc.one _
    · left; exact hc.zero r h
  have hfirst : ∀ m, g (c (e.symm m)) = m := by
    intro m
    rw [he, hc.mem, Equiv.apply_symm_apply]
  rw [mixed_loglik_formula hB hC hy (weights := none) (by simp [ObsWeights]) (by simp [NonnegWeights]) hfirst,
    mixedReplicateLike, mixed_predict_chosen hB hC pos mean sd X ids rta drawList hlen h0 hc]
  simp only [bind, Except.bind, Option.getD_none, one_mul, zero_mul, sub_zero, Except.ok.injEq]
  rw [← Equiv.sum_comp e]
  refine Finset.sum_congr rfl fun o _ => ?_
  congr 2
  funext d
  rw [sequenceProb]
  have hrows : (univ.filter fun r => g r = e o ∧ choice r = 1) = {c o} := by
    ext r
    simp only [Finset.mem_filter, Finset.mem_univ, true_and, Finset.mem_singleton, he,
      EmbeddingLike.apply_eq_iff_eq]
    constructor
    · rintro ⟨rfl, h1⟩
      by_contra hne
      rw [hc.zero r hne] at h1
      exact zero_ne_one h1
    · rintro rfl
      exact ⟨hc.mem o, hc.one o⟩
  rw [hrows, Finset.prod_singleton, kernelProbs, longProbs_eq_clippedLogit hB]
  simp only [expanded_utility hC]

/-- What is missing from `replicate_likes_mixed_partial`: with repeated choices the numbers are not the
simulated log-likelihoods, because the probabilities are averaged over the draws before they are multiplied.
One individual with two observations of two alternatives (rows are pairs of an observation and an
alternative), who chose the alternative with attribute 1 both times; the coefficient of the attribute is
`log 2` in one draw and `-log 2` in the other. -/
theorem replicate_likes_mixed_panel (ids : Bool × Bool → ι) (rta : Matrix (Bool × Bool) A ℝ) :
    let B : Matrix (Bool × Bool) Bool ℝ := Matrix.of fun r o => if r.1 = o then 1 else 0
    let C : Matrix (Bool × Bool) Unit ℝ := Matrix.of fun _ _ => 1
    let x : Bool × Bool → ℝ := fun r => if r.2 then 1 else 0
    let X : Matrix (Bool × Bool) Unit ℝ := Matrix.of fun r _ => x r
    let draws : Unit → Bool → ℝ := fun _ d => if d then Real.log 2 else -Real.log 2
    let θ : Unit ⊕ Fin [()].length → ℝ := Sum.elim (fun _ => 0) fun _ => 1
    ∃ ll, mixedReplicateLike [()] θ X ids B rta C [draws] x = .ok ll ∧
      ll ≠ mixedLogLikelihood θ (expandedDesign X (fun _ => draws) (fun _ => ()) C) B C x none none := by
  intro B C x X draws θ
  have hB : Indicates B Prod.fst := fun r o => by simp [B]
  have hC : Indicates C fun _ => () := fun r o => by simp [C]
  have hc : OneChoice (Prod.fst : Bool × Bool → Bool) x fun o => (o, true) :=
    ⟨fun o => rfl, fun o => by simp [x], fun r hr => by
      have : r.2 = false := by
        rcases r with ⟨a, b⟩
        cases b
        · rfl
        · exact absurd rfl hr
      simp [x, this]⟩
  have hy : ZeroOne x := fun r => by cases h : r.2 <;> simp [x, h]
  have h2 : 0 < Real.log 2 := Real.log_pos (by norm_num)
  have h7 : Real.log 2 ≤ 700 := by
    have := Real.log_two_lt_d9
    linarith
  have hexp : Real.exp (Real.log 2) = 2 := Real.exp_log (by norm_num)
  have hprob : ∀ o d, clippedLogit (Prod.fst : Bool × Bool → Bool) (fun s => ∑ k, X s k *
      randomCoef (fun _ : Unit => 0) (fun _ : Fin [()].length => 1) [()].get (fun _ => draws) () d k)
      (o, true) = if d then 2 / 3 else 1 / 3 := by
    intro o d
    have hrow : ∀ s, (∑ k, X s k * randomCoef (fun _ : Unit => 0) (fun _ : Fin [()].length => 1)
        [()].get (fun _ => draws) () d k) = if s.2 then draws () d else 0 := by
      intro s
      simp [X, x, randomCoef]
    have hsum : ∀ F : Bool × Bool → ℝ, ∑ s ∈ rowsOf (Prod.fst : Bool × Bool → Bool) o, F s =
        F (o, true) + F (o, false) := by
      intro F
      have : rowsOf (Prod.fst : Bool × Bool → Bool) o = {(o, true), (o, false)} := by
        cases o <;> decide
      rw [this, Finset.sum_pair (by simp)]
    have hclip : clip700 (draws () d) = draws () d := by
      unfold clip700
      cases d
      · simp only [draws, Bool.false_eq_true, if_false]
        rw [min_eq_left (by linarith), max_eq_right (by linarith)]
      · simp only [draws, if_true]
        rw [min_eq_left h7, max_eq_right (by linarith)]
    have hclip0 : clip700 0 = 0 := by
      unfold clip700; norm_num
    rw [clippedLogit, logitProb]
    simp only [hrow]
    rw [hsum]
    simp only [if_true, Bool.false_eq_true, if_false, hclip, hclip0, Real.exp_zero]
    cases d
    · simp only [draws, Bool.false_eq_true, if_false, Real.exp_neg, hexp]
      norm_num
    · simp only [draws, if_true, hexp]
      norm_num
  refine ⟨2 * Real.log (1 / 2), ?_, ?_⟩
  · rw [mixedReplicateLike, mixed_predict_chosen hB hC [()] _ _ X ids rta [draws] rfl (by simp) hc]
    simp only [bind, Except.bind, Except.ok.injEq]
    have : ∀ o, (average fun d => clippedLogit (Prod.fst : Bool × Bool → Bool) (fun s => ∑ k, X s k *
        randomCoef (fun _ : Unit => 0) (fun _ : Fin [()].length => 1) [()].get
          (fun j => [draws].get (j.cast rfl)) () d k) (o, true)) = 1 / 2 := by
      intro o
      have e : (fun j : Fin [()].length => [draws].get (j.cast rfl)) = fun _ => draws := by
        funext j
        simp
      rw [e]
      simp only [hprob, average]
      norm_num
    simp only [this]
    simp
  · rw [mixed_loglik_formula hB hC hy (weights := none) (by simp [ObsWeights]) (by simp [NonnegWeights])
      (first := fun _ => (true, true)) (by simp)]
    have hker : ∀ o d, kernelProbs θ (expandedDesign X (fun _ => draws) (fun _ => ()) C) B (o, true) d =
        if d then 2 / 3 else 1 / 3 := by
      intro o d
      rw [← hprob o d, kernelProbs, longProbs_eq_clippedLogit hB]
      congr 1
      funext s
      have := expanded_utility hC X (fun _ : Fin [()].length => draws) [()].get (fun _ : Unit => 0)
        (fun _ => 1) s d
      exact this
    have hseq : ∀ d, sequenceProb (fun _ : Bool × Bool => ()) x
        (fun r => kernelProbs θ (expandedDesign X (fun _ => draws) (fun _ => ()) C) B r d) () =
        (if d then 2 / 3 else 1 / 3) * (if d then 2 / 3 else 1 / 3) := by
      intro d
      have hrows : (univ.filter fun r : Bool × Bool => () = () ∧ x r = 1) =
          {(true, true), (false, true)} := by
        ext r
        rcases r with ⟨a, b⟩
        cases a <;> cases b <;> simp [x]
      rw [sequenceProb, hrows, Finset.prod_pair (by simp), hker, hker]
    simp only [Finset.univ_unique, PUnit.default_eq_unit, Finset.sum_singleton, hseq, average,
      Option.getD_none, one_mul, zero_mul, sub_zero]
    intro h
    have h' : Real.log ((1 / 2) ^ 2) = 2 * Real.log (1 / 2) := by
      rw [Real.log_pow]; norm_num
    rw [← h'] at h
    have := Real.log_injOn_pos (by norm_num) ?_ h
    · norm_num at this
    · norm_num

end Mixed

/-! ### The hypotheses are met -/

section Examples

/-- One observation of `n` alternatives with ids `1, ..., n`; the first one is chosen. -/
def repTable (n : ℕ) : Frame ℝ where
  columns := ["obs", "alt", "x", "y"]
  numRows := n
  val := fun c r => if c = "alt" then (r.val : ℝ) + 1 else if c = "x" then r.val
    else if c = "y" then (if r.val = 0 then 1 else 0) else 1

/-- The alternatives of `repTable n`. -/
def repAlts (n : ℕ) : List ℝ := (List.range n).map fun i : ℕ => (i : ℝ) + 1

/-- A model of `repTable n` with the given numbers of names. -/
def repModel (cls : ModelType) (n : ℕ) (icpts shapes : List String) : ChoiceModel ℝ where
  cls := cls
  displayName := ""
  data := repTable n
  design := []
  indVarNames := [.str "x"]
  args := { altIdCol := "alt", obsIdCol := "obs", choiceCol := "y"
            specification := encodeAll [("x", SpecVal.allSame)], names := none
            interceptRefPos := .int 0, shapeRefPos := .int 0, interceptNames := orNone icpts
            shapeNames := orNone shapes, nestSpec := none, mixingIdCol := none, mixingVars := none }
  mixingPos := none

theorem repAlts_length (n : ℕ) : (repAlts n).length = n := by simp [repAlts]

theorem repAlts_get {n i : ℕ} (h : i < (repAlts n).length) : (repAlts n)[i] = i + 1 := by simp [repAlts]

theorem repTable_alts (n : ℕ) : AltsOf (repTable n) "alt" (repAlts n) where
  ascending := by
    rw [repAlts, List.pairwise_map]
    exact List.pairwise_lt_range.imp fun h => by simpa using h
  mem x := by
    simp only [repAlts, List.mem_map, List.mem_range, repTable, if_true]
    constructor
    · rintro ⟨i, hi, rfl⟩; exact ⟨⟨i, hi⟩, rfl⟩
    · rintro ⟨r, rfl⟩; exact ⟨r.1, r.2, rfl⟩

theorem repTable_marks (n : ℕ) : MarksChoices (repTable n) "obs" "y" where
  zeroOne r := by
    simp only [repTable, show ("y" : String) ≠ "alt" by decide, show ("y" : String) ≠ "x" by decide,
      if_false, if_true]
    split_ifs <;> simp
  one r := by
    refine ⟨⟨0, Nat.zero_lt_of_lt r.2⟩, ⟨rfl, by simp [repTable]⟩, ?_⟩
    rintro s ⟨-, hs⟩
    simp only [repTable, show ("y" : String) ≠ "alt" by decide, show ("y" : String) ≠ "x" by decide,
      if_false, if_true] at hs
    by_cases h : s.val = 0
    · exact Fin.ext h
    · simp [h] at hs

theorem repModel_predictable (cls : ModelType) (n : ℕ) (icpts shapes : List String) :
    Predictable (repModel cls n icpts shapes) (repTable n) [("x", .allSame)] (repAlts n) where
  spec := rfl
  names := rfl
  noMix := rfl
  isAlts := repTable_alts n
  altCol := by simp [repModel, repTable]
  obsCol := by simp [repModel, repTable]
  choiceCol := by simp [repModel, repTable]
  vars := by simp [repTable]
  valid := by simp [SpecVal.ValidFor]
  nonempty := by simp [specColumns, SpecVal.columns]
  count := by simp [specColumns, SpecVal.columns, repModel]

theorem repModel_data (cls : ModelType) (n : ℕ) (icpts shapes : List String) :
    repTable n = addIntercept (repModel cls n icpts shapes).args.specification
      (repModel cls n icpts shapes).data := by
  simp [addIntercept, repModel, encodeAll]

theorem nameCount_orNone {α : Type} (l : List α) : nameCount (orNone l) = l.length := by
  unfold orNone
  split_ifs with h <;> simp [nameCount, h]

/-- Intercepts and shapes of the examples: proportional to the id minus one. -/
def repParams (e : ℕ) : AltParams := ⟨fun a => (e + 1) * (a - 1), fun a => (e + 2) * (a - 1)⟩

theorem rep_others {n : ℕ} (hn : 0 < n) (t : ℝ) :
    ListsOthers (repAlts n) (.int 0) (fun a => t * (a - 1))
      (((repAlts n).eraseIdx 0).map fun a => t * (a - 1)) :=
  ⟨0, by rw [repAlts_length]; exact hn, rfl, rfl, by rw [repAlts_get]; simp⟩

/-- The asymmetric model with outside intercepts: three alternatives, two replicates. -/
noncomputable def repAsym : Groups (Fin 2 → ℝ) where
  nests := []
  shapes := ((repAlts 3).eraseIdx 0).map fun a e => (repParams e).shape a
  intercepts := ((repAlts 3).eraseIdx 0).map fun a e => (repParams e).icpt a
  index := [![1, 2]]

example (env : Env ℝ) : ∃ l, replicateLikes env (repModel .asym 3 ["c2", "c3"] ["s2", "s3"]) repAsym.flat =
    .ok l ∧ l.length = 2 := by
  refine ⟨_, replicate_likes_partial env (repModel .asym 3 ["c2", "c3"] ["s2", "s3"]) (repModel_data ..)
    (repModel_predictable ..) (by simp [repAlts]) (repTable_marks 3) (by norm_num) repAsym ?_
    (fun e => repParams e) ?_ (by simp [ColumnwiseFor, repModel]), by simp⟩
  · constructor <;> simp [repModel, repAsym, nameCount_orNone, repAlts_length] <;> rfl
  · intro e
    have h1 : (column (groupArrays repAsym) e).intercepts =
        some (((repAlts 3).eraseIdx 0).map (repParams e).icpt) := by
      simp [column, groupArrays, repAsym, orNone, repAlts, List.range_succ]
    have h2 : (column (groupArrays repAsym) e).shapes =
        some (((repAlts 3).eraseIdx 0).map (repParams e).shape) := by
      simp [column, groupArrays, repAsym, orNone, repAlts, List.range_succ]
    refine ⟨?_, ?_, ?_, ?_⟩
    · intro h; rw [h1] at h; cases h
    · intro x hx
      rw [h1] at hx
      cases hx
      exact rep_others (by norm_num) _
    · intro h; simp [repModel] at h
    · intro _
      exact ⟨_, h2, rep_others (by norm_num) _⟩

/-- Replicates with the given numbers of zero shapes and intercepts. -/
def repGroups (d s c : ℕ) : Groups (Fin d → ℝ) := ⟨[], List.replicate s 0, List.replicate c 0, [1]⟩

theorem repGroups_for (cls : ModelType) (d n : ℕ) (icpts shapes : List String) :
    ReplicatesFor (repModel cls n icpts shapes) (repGroups d shapes.length icpts.length) := by
  constructor <;> simp [repModel, repGroups, nameCount_orNone] <;> rfl

/-- The Scobit model without intercepts, five replicates and three rows. -/
example (env : Env ℝ) : replicateLikes env (repModel .scobit 3 [] ["s1", "s2", "s3"])
    (repGroups 5 3 0).flat = .error .valueError :=
  replicate_likes_scobit_refused env _ (repModel_data ..) (repModel_predictable ..) (repTable_marks 3) _
    (repGroups_for .scobit 5 3 [] ["s1", "s2", "s3"]) rfl rfl (by simp [repGroups, repAlts])
    (by simp [repAlts]) (by norm_num) (by simp [repTable]) (by simp [repTable])

/-- The Scobit model without intercepts, one replicate and three rows. -/
example (env : Env ℝ) : ∃ l, replicateLikes env (repModel .scobit 3 [] ["s1", "s2", "s3"])
    (repGroups 1 3 0).flat = .ok l ∧ l.length = 3 := by
  refine ⟨_, replicate_likes_scobit_one env _ (repModel_data ..) (repModel_predictable ..)
    (repTable_marks 3) _ (repGroups_for .scobit 1 3 [] ["s1", "s2", "s3"]) rfl rfl ⟨0, 0⟩ ?_, ?_⟩
  · refine ⟨fun _ a _ => rfl, fun x hx => ?_, fun _ => ?_, fun h => by cases h⟩
    · simp [column, groupArrays, repGroups, orNone] at hx
    · simp [column, groupArrays, repGroups, orNone, repAlts, List.range_succ, List.replicate]
  · rw [List.length_replicate]; rfl

/-- One replicate with outside intercepts, three alternatives. -/
example (env : Env ℝ) : replicateLikes env (repModel .cloglog 3 ["c2", "c3"] [])
    (repGroups 1 0 2).flat = .error .valueError :=
  replicate_likes_one_intercepts_refused env _ (repModel_data ..) (repModel_predictable ..)
    (repTable_marks 3) _ (repGroups_for .cloglog 1 3 ["c2", "c3"] []) (Or.inl rfl)
    (by simp [repAlts]) (z := 0) (by simp [repAlts]) rfl (by simp [repGroups, repAlts]) (by simp [repModel])

/-- One replicate with an outside intercept, two alternatives. -/
example (env : Env ℝ) : replicateLikes env (repModel .uneven 2 ["c2"] ["s1", "s2"])
    (repGroups 1 2 1).flat = .error .valueError :=
  replicate_likes_one_intercept_refused env _ (repModel_data ..) (repModel_predictable ..)
    (repTable_marks 2) _ (repGroups_for .uneven 1 2 ["c2"] ["s1", "s2"]) (Or.inr rfl)
    (by simp [repAlts]) (z := 0) (by norm_num) rfl (by simp [repGroups]) (by simp [repGroups])
    (by simp [repTable])

/-- One replicate of the asymmetric model, three alternatives. -/
example (env : Env ℝ) : replicateLikes env (repModel .asym 3 [] ["s2", "s3"])
    (repGroups 1 2 0).flat = .error .valueError :=
  replicate_likes_one_asym_refused env _ (repModel_data ..) (repModel_predictable ..)
    (repTable_marks 3) _ (repGroups_for .asym 1 3 [] ["s2", "s3"]) rfl
    (by simp [repAlts]) (z := 0) (by simp [repAlts]) rfl (by simp [repGroups, repAlts])

/-- A nested logit model of `repTable 3` with two nests. -/
def repNested : ChoiceModel ℝ :=
  { repModel .nested 3 [] [] with
    args := { (repModel .nested 3 [] []).args with
      nestSpec := some [(.str "a", .list [.num 1]), (.str "b", .list [.num 2, .num 3])] } }

example (env : Env ℝ) (stored : ParamArrays) : ∃ l, replicateLikesNested env repNested
    [("a", [1]), ("b", [2, 3])] stored ([![0, 1], ![2, 3], ![4, 5]] : List (Fin 2 → ℝ)) = .ok l ∧
      l.length = 2 := by
  have hp : Predictable repNested (repTable 3) [("x", .allSame)] (repAlts 3) :=
    { repModel_predictable .nested 3 [] [] with }
  have hg : ReplicatesFor repNested
      (⟨[![0, 1], ![2, 3]], [], [], [![4, 5]]⟩ : Groups (Fin 2 → ℝ)) := by
    constructor <;> rfl
  obtain ⟨gm, -, h⟩ := replicate_likes_nested env repNested
    (df := repTable 3) (repModel_data .nested 3 [] []) hp (repTable_marks 3)
    (nestSpec := [("a", [1]), ("b", [2, 3])]) (by decide)
    (by norm_num [repAlts, InOneNest, List.range_succ]) (by simp) stored (by norm_num) _ hg rfl
  exact ⟨_, h, by simp⟩

end Examples

end Pylogit
