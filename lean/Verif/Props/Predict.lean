import Verif.Spec.Predict
import Verif.Props.Design
import Verif.Props.Mappings
import Verif.Lemmas.Choice

/-! # C68: predictions use each parameter for the alternative it belongs to -/

open Finset Matrix

set_option linter.unusedSectionVars false

namespace Pylogit

open Spec

/-! ## The mappings of a table -/

theorem Frame.rowsToAlts_apply (df : Frame ℝ) (col : String) (r : Fin df.numRows)
    (j : Fin (npSort (npUnique (df.colList col))).length) :
    df.rowsToAlts col r j = if df.val col r = (npSort (npUnique (df.colList col))).get j then 1 else 0 := by
  have := sparseMapping_apply (V := ℝ) (df.colList col) (npSort (npUnique (df.colList col)))
    (by rw [npSort_npUnique]; exact npUnique_nodup _) (Fin.cast (by simp [Frame.colList]) r) j
  simp only [Frame.colList, List.get_ofFn] at this
  exact this

theorem Frame.rowsToObs_apply (df : Frame ℝ) (col : String) (r : Fin df.numRows)
    (j : Fin (originalOrderUniqueIds (df.colList col)).length) :
    df.rowsToObs col r j = if df.val col r = (originalOrderUniqueIds (df.colList col)).get j then 1 else 0 := by
  have := sparseMapping_apply (V := ℝ) (df.colList col) (originalOrderUniqueIds (df.colList col))
    (originalOrder_nodup _) (Fin.cast (by simp [Frame.colList]) r) j
  simp only [Frame.colList, List.get_ofFn] at this
  exact this

theorem Frame.rowsToObs_indicates (df : Frame ℝ) (col : String) :
    ∃ f : Fin df.numRows → Fin (originalOrderUniqueIds (df.colList col)).length,
      Indicates (df.rowsToObs col) f ∧
        ∀ r o, f r = o ↔ df.val col r = (originalOrderUniqueIds (df.colList col)).get o := by
  have h : ∀ r, ∃ o, df.val col r = (originalOrderUniqueIds (df.colList col)).get o := by
    intro r
    have : df.val col r ∈ originalOrderUniqueIds (df.colList col) := by
      rw [mem_originalOrder, Frame.colList, List.mem_ofFn]; exact ⟨r, rfl⟩
    obtain ⟨o, ho⟩ := List.get_of_mem this
    exact ⟨o, ho.symm⟩
  choose f hf using h
  have hiff : ∀ r o, f r = o ↔ df.val col r = (originalOrderUniqueIds (df.colList col)).get o := by
    intro r o
    constructor
    · rintro rfl; exact hf r
    · intro e
      rw [hf r] at e
      exact (List.Nodup.injective_get (originalOrder_nodup _)) e
  refine ⟨f, fun r o => ?_, hiff⟩
  rw [Frame.rowsToObs_apply]
  simp only [hiff]

/-- The probabilities, by observation id. -/
theorem frame_longProbs (df : Frame ℝ) (col : String) (h : Fin df.numRows → ℝ) :
    longProbs (df.rowsToObs col) h = clippedLogit (df.val col) h := by
  obtain ⟨f, hf, hiff⟩ := df.rowsToObs_indicates col
  funext r
  have hc : ∀ x, clipExponent x = clip700 x := by
    intro x
    unfold clipExponent clip700 maxExponentVal minExponentVal
    split_ifs with h1 h2
    · rw [min_eq_right h1.le, max_eq_right (by norm_num)]
    · rw [min_eq_left (not_lt.1 h1), max_eq_left h2.le]
    · rw [min_eq_left (not_lt.1 h1), max_eq_right (not_lt.1 h2)]
  rw [longProbs_eq hf, clippedLogit, logitProb]
  simp only [longExponentials, hc]
  congr 1
  refine Finset.sum_congr ?_ fun _ _ => rfl
  ext s
  rw [mem_rowsOf, mem_rowsOf, hiff, ← (hiff r (f r)).1 rfl]

/-- The tail of `calc_probabilities`, by observation id. -/
theorem probParts_eq (df : Frame ℝ) (col : String) (h : Fin df.numRows → ℝ) (choiceCol : Option String)
    (returnLong : Bool) :
    probParts (df.rowsToObs col) h (choiceCol.map df.val) returnLong =
      predictedParts df col (clippedLogit (df.val col) h) choiceCol returnLong := by
  have hch : ∀ c : String, ∀ o, chosenProbs (df.rowsToObs col)
      (Matrix.of fun r o => df.rowsToObs col r o * df.val c r) h o =
      ∑ r with df.val col r = (originalOrderUniqueIds (df.colList col)).get o,
        df.val c r * clippedLogit (df.val col) h r := by
    intro c o
    obtain ⟨f, hf, hiff⟩ := df.rowsToObs_indicates col
    rw [← frame_longProbs, chosenProbs, individualDenominators_eq hf]
    have h1 : ∀ r, r ∈ (univ.filter fun r => df.val col r =
        (originalOrderUniqueIds (df.colList col)).get o) → df.val c r * longProbs (df.rowsToObs col) h r =
        df.val c r * longExponentials h r / ∑ s ∈ rowsOf f o, longExponentials h s := by
      intro r hr
      rw [longProbs_eq hf, (hiff r o).2 (by simpa using hr), mul_div_assoc]
    rw [Finset.sum_congr rfl h1, ← Finset.sum_div, Finset.sum_filter]
    congr 1
    simp only [mulVec, dotProduct, transpose_apply, Matrix.of_apply, hf _ _]
    refine Finset.sum_congr rfl fun r _ => ?_
    simp only [← hiff]
    split_ifs <;> ring
  cases choiceCol with
  | none => simp [probParts, predictedParts, frame_longProbs]
  | some c => cases returnLong <;> simp [probParts, predictedParts, frame_longProbs, hch]

/-! ## Arrays of parameters -/

theorem mappingDot_map {df : Frame ℝ} {col : String} {alts : List ℝ} (ha : AltsOf df col alts)
    (g : ℝ → ℝ) : mappingDot (df.rowsToAlts col) (alts.map g) = .ok fun r => g (df.val col r) := by
  have e := altsOf_eq ha
  rw [mappingDot, if_neg (by simp [e])]
  congr 1
  funext r
  have hr : df.val col r ∈ npSort (npUnique (df.colList col)) := by
    rw [e]; exact (ha.mem _).2 ⟨r, rfl⟩
  obtain ⟨j, hj⟩ := List.get_of_mem hr
  have hnd : (npSort (npUnique (df.colList col))).Nodup := by
    rw [npSort_npUnique]; exact npUnique_nodup _
  rw [mulVec, dotProduct, Finset.sum_eq_single j]
  · rw [Frame.rowsToAlts_apply, if_pos hj.symm, one_mul]
    have hlt : j.val < alts.length := e ▸ j.2
    have : alts[j.val] = df.val col r := by rw [← hj]; simp [e]
    simp [List.getD_eq_getElem?_getD, List.getElem?_map, List.getElem?_eq_getElem hlt, this]
  · intro i _ hi
    rw [Frame.rowsToAlts_apply, if_neg, zero_mul]
    rw [← hj]
    exact fun h => hi (hnd.injective_get h).symm
  · simp

theorem mappingDot_error {n : ℕ} {R : Type} {M : Matrix R (Fin n) ℝ} {x : List ℝ} (h : x.length ≠ n) :
    mappingDot M x = .error .valueError := by
  rw [mappingDot, if_pos h]

theorem idxOf_range {m z : ℕ} (h : z < m) : (List.range m).idxOf z = z := by
  have := (List.nodup_range (n := m)).idxOf_getElem z (by simpa using h)
  simpa using this

theorem removeRef_ok {m z : ℕ} (h : z < m) :
    removeRef m (.int z) = .ok ((List.range m).eraseIdx z) := by
  rw [removeRef, if_pos (by omega)]
  congr 1
  have h1 : (List.range m).eraseIdx z = (List.range m).erase z := by
    rw [List.erase_eq_eraseIdx_of_idxOf (i := z)]
    exact idxOf_range h
  rw [h1, List.nodup_range.erase_eq_filter]
  refine List.filter_congr fun x _ => ?_
  by_cases hx : x = z <;> simp [hx]

theorem scatter_others {W : Type} [Zero W] {n z : ℕ} (hz : z < n) (alts : List ℝ) (hn : alts.length = n)
    (g : ℝ → W) :
    scatter n ((List.range n).eraseIdx z) ((alts.eraseIdx z).map g) =
      .ok ((List.range n).map fun j => if j = z then 0 else g (alts.getD j 0)) := by
  have hmem : ∀ j, j ∈ (List.range n).eraseIdx z ↔ j < n ∧ j ≠ z := by
    intro j
    have h1 : (List.range n).eraseIdx z = (List.range n).erase z := by
      rw [List.erase_eq_eraseIdx_of_idxOf (i := z)]
      exact idxOf_range hz
    rw [h1, List.nodup_range.mem_erase_iff]
    simp [and_comm]
  have halts : alts = (List.range n).map fun j => alts.getD j 0 := by
    refine List.ext_getElem (by simp [hn]) fun i h1 h2 => ?_
    simp [List.getD_eq_getElem?_getD, List.getElem?_eq_getElem h1]
  have hvals : (alts.eraseIdx z).map g = ((List.range n).eraseIdx z).map fun j => g (alts.getD j 0) := by
    conv_lhs => rw [halts]
    rw [List.eraseIdx_map, List.map_map]
    rfl
  unfold scatter
  rw [if_neg ?_, if_pos (by rw [hvals]; simp)]
  · congr 1
    refine List.map_congr_left fun j hj => ?_
    rw [List.mem_range] at hj
    by_cases hjz : j = z
    · rw [if_pos hjz, if_neg (by rw [hmem]; exact fun h => h.2 hjz)]
    · have hj' : j ∈ (List.range n).eraseIdx z := (hmem j).2 ⟨hj, hjz⟩
      rw [if_neg hjz, if_pos hj', hvals, List.getD_eq_getElem?_getD, List.getElem?_map,
        getElem?_idxOf hj']
      simp
  · rintro ⟨i, hi, hni⟩
    exact absurd ((hmem i).1 hi).1 (not_lt.2 hni)

theorem scatter_listsOthers {W : Type} [Zero W] {alts : List ℝ} {z : ℕ} (hz : z < alts.length)
    {q : ℝ → W}
    (h0 : q alts[z] = 0) :
    scatter alts.length ((List.range alts.length).eraseIdx z) ((alts.eraseIdx z).map q) =
      .ok (alts.map q) := by
  rw [scatter_others hz alts rfl]
  congr 1
  refine List.ext_getElem (by simp) fun i h1 h2 => ?_
  have hi : i < alts.length := by simpa using h2
  simp only [List.getElem_map, List.getElem_range, List.getD_eq_getElem?_getD,
    List.getElem?_eq_getElem hi, Option.getD_some]
  split_ifs with h
  · subst h; exact h0.symm
  · rfl

theorem interceptTerm_ok {cls : ModelType} {df : Frame ℝ} {col : String} {alts : List ℝ}
    (ha : AltsOf df col alts) {ref : PyRef} {x : List ℝ} {q : ℝ → ℝ} (h : ListsOthers alts ref q x) :
    interceptTerm cls (df.rowsToAlts col) ref (some x) = .ok fun r => q (df.val col r) := by
  obtain ⟨z, hz, rfl, rfl, h0⟩ := h
  have e := altsOf_eq ha
  have hlen : (if cls = .scobit then ((alts.eraseIdx z).map q).length + 1
      else (npSort (npUnique (df.colList col))).length) = alts.length := by
    rw [e]
    split_ifs
    · simp [List.length_eraseIdx, hz]; omega
    · rfl
  simp only [interceptTerm, hlen, removeRef_ok hz, bind, Except.bind]
  have hs := scatter_listsOthers hz h0
  have : scatter (npSort (npUnique (df.colList col))).length ((List.range alts.length).eraseIdx z)
      ((alts.eraseIdx z).map q) = .ok (alts.map q) := by rw [e]; exact hs
  simp only [this]
  exact mappingDot_map ha q

theorem etaToC_ok {alts : List ℝ} {ref : PyRef} {x : List ℝ} {q : ℝ → ℝ}
    (h : ListsOthers alts ref q x) :
    etaToC ref x = .ok (alts.map fun a => Real.exp (q a) / (alts.map fun b => Real.exp (q b)).sum) := by
  obtain ⟨z, hz, rfl, rfl, h0⟩ := h
  have hlen : ((alts.eraseIdx z).map q).length + 1 = alts.length := by
    simp [List.length_eraseIdx, hz]; omega
  have hexp : ((alts.eraseIdx z).map q).map
      (fun x => if Real.exp x = 0 then minCompValue else Real.exp x) =
      (alts.eraseIdx z).map fun a => Real.exp (q a) := by
    rw [List.map_map]
    refine List.map_congr_left fun a _ => ?_
    simp [Real.exp_ne_zero]
  have hsum : ((alts.eraseIdx z).map fun a => Real.exp (q a)).sum + 1 =
      (alts.map fun b => Real.exp (q b)).sum := by
    have hp := (List.getElem_cons_eraseIdx_perm hz).map fun a => Real.exp (q a)
    have := hp.sum_eq
    rw [← this]
    simp [h0, add_comm]
  simp only [etaToC, hlen, removeRef_ok hz, hexp, hsum, bind, Except.bind, List.map_map]
  have := scatter_others hz alts rfl
    ((fun x => x / (alts.map fun b => Real.exp (q b)).sum) ∘ fun a => Real.exp (q a))
  rw [this]
  simp only [Int.toNat_natCast]
  congr 1
  refine List.ext_getElem (by simp) fun i h1 h2 => ?_
  have hi : i < alts.length := by simpa using h2
  rw [List.getElem_set]
  simp only [List.getElem_map, List.getElem_range, List.getD_eq_getElem?_getD,
    List.getElem?_eq_getElem hi, Option.getD_some, Function.comp_def]
  split_ifs with hzi
  · subst hzi; rw [h0, Real.exp_zero]
  · exact absurd (by omega) hzi
  · rfl

theorem designDot_ok {df : Frame ℝ} {altCol : String} {ds : List (ColDesc ℝ)} {beta : List ℝ}
    (h : beta.length = ds.length) :
    designDot (ds.map fun d => d.value df altCol) beta = .ok (rowIndex df altCol ds beta) := by
  rw [designDot, if_neg (by simp [h])]
  congr 1
  funext r
  rw [rowIndex, List.zip_map_left, List.map_map]
  rfl

theorem transform_ok {cls : ModelType} {df : Frame ℝ} {col : String} {alts : List ℝ}
    (ha : AltsOf df col alts) (h2 : cls = .asym → 2 ≤ alts.length) {icptRef shapeRef : PyRef}
    {p : ParamArrays} {q : AltParams} (hp : HoldsFor cls alts icptRef shapeRef p q)
    (v : Fin df.numRows → ℝ) :
    predictTransform cls (df.rowsToAlts col) icptRef shapeRef p v =
      .ok fun r => rowUtility cls alts q (df.val col r) (v r) := by
  have e := altsOf_eq ha
  have hmem : ∀ r, df.val col r ∈ alts := fun r => (ha.mem _).2 ⟨r, rfl⟩
  have hi : ∀ c, interceptTerm c (df.rowsToAlts col) icptRef p.intercepts =
      .ok fun r => q.icpt (df.val col r) := by
    intro c
    cases hx : p.intercepts with
    | none =>
      have : (fun r => q.icpt (df.val col r)) = fun _ => 0 := by
        funext r; exact hp.noIcpt hx _ (hmem r)
      rw [this]
      cases icptRef <;> rfl
    | some x => exact interceptTerm_ok ha (hp.icpt x hx)
  cases cls with
  | cloglog =>
    simp only [predictTransform, hi, bind, Except.bind]
    congr 1
    funext r
    rw [rowUtility, clogH, add_comm]
    congr 1
    by_cases hv : (3.7 : ℝ) ≤ v r
    · rw [if_pos hv, if_pos hv]
    · rw [if_neg hv, if_neg hv, logGuard, if_neg]
      have : Real.exp 0 < Real.exp (Real.exp (v r)) := Real.exp_lt_exp.2 (Real.exp_pos _)
      rw [Real.exp_zero] at this
      linarith
  | scobit =>
    simp only [predictTransform, hi, bind, Except.bind, shapeTerm, hp.shape (Or.inl rfl), reduceCtorEq,
      if_false, List.map_map, mappingDot_map ha]
    congr 1
    funext r
    simp only [rowUtility, scobitH, Function.comp_def, neg_one_mul]
    ring
  | uneven =>
    simp only [predictTransform, hi, bind, Except.bind, shapeTerm, hp.shape (Or.inr rfl), reduceCtorEq,
      if_false, List.map_map, mappingDot_map ha]
    congr 1
    funext r
    simp only [rowUtility, unevenH, Function.comp_def, neg_mul, one_mul]
    linarith
  | asym =>
    obtain ⟨x, hx, hl⟩ := hp.eta rfl
    simp only [predictTransform, hi, bind, Except.bind, shapeTerm, hx, if_true, etaToC_ok hl,
      mappingDot_map ha]
    congr 1
    funext r
    have hpos : ∀ a : ℝ, 0 < Real.exp (q.shape a) := fun a => Real.exp_pos _
    obtain ⟨i, hilt, hia⟩ := List.getElem_of_mem (hmem r)
    have hperm := ((List.getElem_cons_eraseIdx_perm hilt).map fun b => Real.exp (q.shape b)).sum_eq
    have hrest : 0 < ((alts.eraseIdx i).map fun b => Real.exp (q.shape b)).sum := by
      refine List.sum_pos _ ?_ ?_
      · intro y hy
        obtain ⟨b, -, rfl⟩ := List.mem_map.1 hy
        exact hpos b
      · intro hnil
        have := congrArg List.length hnil
        simp [List.length_eraseIdx, hilt] at this
        have := h2 rfl
        omega
    simp only [List.map_cons, List.sum_cons, hia] at hperm
    set S := (alts.map fun b => Real.exp (q.shape b)).sum with hS
    set E := Real.exp (q.shape (df.val col r)) with hE
    have hEpos : 0 < E := hpos _
    have hSpos : 0 < S := by rw [← hperm]; linarith
    have hlt : E / S < 1 := by rw [div_lt_one hSpos]; linarith
    have hJ : (0 : ℝ) < alts.length - 1 := by
      have : (2 : ℝ) ≤ alts.length := by exact_mod_cast h2 rfl
      linarith
    have hc : logGuard (E / S) = Real.log (E / S) := by
      rw [logGuard, if_neg (div_pos hEpos hSpos).ne']
    have hc1 : logGuard ((1 - E / S) / ((alts.length : ℝ) - 1)) =
        Real.log ((1 - E / S) / ((alts.length : ℝ) - 1)) := by
      rw [logGuard, if_neg (div_pos (by linarith) hJ).ne']
    simp only [rowUtility, asymH, e, ← hS, ← hE, hc, hc1, ge_iff_le]
    rw [add_comm]
  | mnl => rfl
  | nested => rfl
  | mixed => rfl

/-! ## C68 -/

theorem choiceArray_ok {df : Frame ℝ} {cc : Option String} {y : Option (Fin df.numRows → ℝ)} :
    choiceArray df cc = .ok y ↔ (∀ c ∈ cc, c ∈ df.columns) ∧ y = cc.map df.val := by
  cases cc with
  | none => simp [choiceArray, eq_comm]
  | some c =>
    by_cases h : c ∈ df.columns
    · simp [choiceArray, h, eq_comm]
    · simp [choiceArray, h]

/-- When `predict` returns, and what. -/
theorem predictFrame_ok {env : Env ℝ} {m : ChoiceModel ℝ} {stored : ParamArrays} {df : Frame ℝ}
    {pl : Option ParamArrays} {rl : Bool} {cc : Option String} {res} :
    predictFrame env m stored df pl rl cc = .ok res ↔
      predictChecks m df pl rl cc = .ok () ∧ (∀ c ∈ cc, c ∈ df.columns) ∧
      ∃ d, createDesignMatrix env.fmt env.fmtList df m.args.specification m.args.altIdCol m.args.names =
          .ok d ∧
        ∃ v, designDot d.1 (pl.getD stored).index = .ok v ∧
        ∃ h, predictTransform m.cls (df.rowsToAlts m.args.altIdCol) m.args.interceptRefPos
            m.args.shapeRefPos (pl.getD stored) v = .ok h ∧
          res = probParts (df.rowsToObs m.args.obsIdCol) h (cc.map df.val) rl := by
  unfold predictFrame
  cases h1 : predictChecks m df pl rl cc with
  | error e => simp [bind, Except.bind]
  | ok u =>
  cases h2 : createDesignMatrix env.fmt env.fmtList df m.args.specification m.args.altIdCol m.args.names with
  | error e => simp [bind, Except.bind]
  | ok d =>
  cases h3 : choiceArray df cc with
  | error e =>
    have : ¬ ∀ c ∈ cc, c ∈ df.columns := by
      intro h
      rw [choiceArray_ok.2 ⟨h, rfl⟩] at h3
      cases h3
    simp only [bind, Except.bind, reduceCtorEq, false_iff]
    exact fun h => this h.2.1
  | ok y =>
  obtain ⟨hcc, rfl⟩ := choiceArray_ok.1 h3
  cases h4 : designDot d.1 (pl.getD stored).index with
  | error e => simp [bind, Except.bind, h4]
  | ok v =>
  cases h5 : predictTransform m.cls (df.rowsToAlts m.args.altIdCol) m.args.interceptRefPos
      m.args.shapeRefPos (pl.getD stored) v with
  | error e => simp [bind, Except.bind, h4, h5]
  | ok h =>
    simp only [bind, Except.bind, h4, h5, Except.ok.injEq, true_and]
    constructor
    · rintro rfl
      exact ⟨hcc, d, rfl, v, h4, h, h5, rfl⟩
    · rintro ⟨-, d', rfl, v', e1, h', e2, rfl⟩
      obtain rfl := Except.ok.inj (h4.symm.trans e1)
      obtain rfl := Except.ok.inj (h5.symm.trans e2)
      rfl

theorem designDot_length {R : Type} {cols : List (R → ℝ)} {beta : List ℝ} {v : R → ℝ}
    (h : designDot cols beta = .ok v) : cols.length = beta.length := by
  by_contra hne
  rw [designDot, if_pos hne] at h
  cases h

/-- **C68** (same alternatives). Let the parameter arrays hold, in the documented order, the intercept and
the shape of every alternative of the prediction table.  Whenever `predict` returns, the probability of a
row is the (clipped) logit probability, within its observation, of the utility computed with the index
coefficients of the described columns and with the intercept and the shape of that row's own alternative. -/
theorem predict_right_alternatives_partial {env : Env ℝ} {m : ChoiceModel ℝ} {s : List (String × SpecVal ℝ)}
    (hspec : m.args.specification = encodeAll s) {stored : ParamArrays} {df : Frame ℝ}
    {pl : Option ParamArrays} {rl : Bool} {cc : Option String} {res} {alts : List ℝ} {q : AltParams}
    (ha : AltsOf df m.args.altIdCol alts) (hasym : m.cls = .asym → 2 ≤ alts.length)
    (hp : HoldsFor m.cls alts m.args.interceptRefPos m.args.shapeRefPos (pl.getD stored) q)
    (h : predictFrame env m stored df pl rl cc = .ok res) :
    res = predictedParts df m.args.obsIdCol (clippedLogit (df.val m.args.obsIdCol) fun r =>
      rowUtility m.cls alts q (df.val m.args.altIdCol r)
        (rowIndex df m.args.altIdCol (specColumns alts s) (pl.getD stored).index r)) cc rl := by
  obtain ⟨-, -, ⟨cols, nms⟩, hd, v, hv, t, ht, rfl⟩ := predictFrame_ok.1 h
  rw [hspec] at hd
  have hcols := design_entries ha hd
  have hlen := designDot_length hv
  simp only [hcols] at hv hlen
  rw [designDot_ok (by simpa using hlen.symm)] at hv
  rw [transform_ok ha hasym hp] at ht
  rw [probParts_eq, ← Except.ok.inj ht, ← Except.ok.inj hv]
  rfl

/-- **C68** (same alternatives, success). `predict` returns when the columns it needs are in the table, the
parameters are those of the fitted model, default names are used, and there is one index coefficient per
described column. -/
theorem predict_succeeds (env : Env ℝ) (m : ChoiceModel ℝ) {s : List (String × SpecVal ℝ)}
    (hspec : m.args.specification = encodeAll s) (hnames : m.args.names = none)
    (hmix : m.args.mixingIdCol = none) (stored : ParamArrays) (df : Frame ℝ) (rl : Bool)
    (cc : Option String) {alts : List ℝ} {q : AltParams} (ha : AltsOf df m.args.altIdCol alts)
    (hasym : m.cls = .asym → 2 ≤ alts.length)
    (hp : HoldsFor m.cls alts m.args.interceptRefPos m.args.shapeRefPos stored q)
    (halt : m.args.altIdCol ∈ df.columns) (hobs : m.args.obsIdCol ∈ df.columns)
    (hvars : ∀ kv ∈ s, kv.1 ∈ df.columns) (hvalid : ∀ kv ∈ s, kv.2.ValidFor alts)
    (hne : specColumns alts s ≠ []) (hlen : stored.index.length = (specColumns alts s).length)
    (hcc : ∀ c ∈ cc, c ∈ df.columns) (hask : rl = true ∨ cc.isSome) :
    predictFrame env m stored df none rl cc = .ok (predictedParts df m.args.obsIdCol
      (clippedLogit (df.val m.args.obsIdCol) fun r =>
        rowUtility m.cls alts q (df.val m.args.altIdCol r)
          (rowIndex df m.args.altIdCol (specColumns alts s) stored.index r)) cc rl) := by
  have hchk : predictChecks (W := ℝ) m df none rl cc = .ok () := by
    have h1 : ensureColumnsInDataframe [m.args.altIdCol] df = .ok () := ensureColumns_ok.2 (by simpa)
    have h2 : ensureColumnsInDataframe [m.args.obsIdCol] df = .ok () := ensureColumns_ok.2 (by simpa)
    have h3 : ¬ (¬ rl = true ∧ cc = none) := by
      rintro ⟨h3, rfl⟩
      simp [h3] at hask
    simp only [predictChecks, h1, h2, hmix, bind, Except.bind]
    rw [if_neg h3]
  have hd := design_success env.fmt env.fmtList df s m.args.altIdCol alts ha halt hvars hvalid hne
  rw [← hspec, ← hnames] at hd
  refine predictFrame_ok.2 ⟨hchk, hcc, _, hd, _, designDot_ok hlen, _, transform_ok ha hasym hp _, ?_⟩
  rw [probParts_eq]
  rfl

/-! ### When the alternatives differ -/

theorem scatter_length {W : Type} [Zero W] {n : ℕ} {idxs : List ℕ} {vals out : List W} (h : scatter n idxs vals = .ok out) :
    out.length = n ∧ (vals.length = idxs.length ∨ vals.length = 1) := by
  unfold scatter at h
  split_ifs at h with h1 h2
  · cases h; simp [h2]
  · split at h
    · cases h; simp
    · cases h

theorem etaToC_length {ref : PyRef} {eta c : List ℝ} (h : etaToC ref eta = .ok c) :
    c.length = eta.length + 1 := by
  unfold etaToC at h
  split at h
  · next z =>
    cases h1 : removeRef (eta.length + 1) (.int z) with
    | error e => simp [h1, bind, Except.bind] at h
    | ok idxs =>
      simp only [h1, bind, Except.bind] at h
      split at h
      · cases h
      · next c' hc =>
        cases h
        rw [List.length_set]
        exact (scatter_length hc).1
  · cases h

theorem shapeTerm_length {cls : ModelType} {R : Type} {n : ℕ} {M : Matrix R (Fin n) ℝ} {ref : PyRef}
    {shapes : Option (List ℝ)} {c : R → ℝ} (h : shapeTerm cls M ref shapes = .ok c) :
    ∃ s, shapes = some s ∧ n = if cls = .asym then s.length + 1 else s.length := by
  unfold shapeTerm at h
  split at h
  · cases h
  · next s =>
    refine ⟨s, rfl, ?_⟩
    split_ifs at h with hc
    · rw [if_pos hc]
      cases h1 : etaToC ref s with
      | error e => simp [h1, bind, Except.bind] at h
      | ok c' =>
        simp only [h1, bind, Except.bind] at h
        by_contra hne
        rw [mappingDot_error (by rw [etaToC_length h1]; exact Ne.symm hne)] at h
        cases h
    · rw [if_neg hc]
      by_contra hne
      rw [mappingDot_error (by simpa using Ne.symm hne)] at h
      cases h

theorem removeRef_length {m : ℕ} {ref : PyRef} {l : List ℕ} (h : removeRef m ref = .ok l) :
    l.length + 1 = m := by
  unfold removeRef at h
  split at h
  · next z =>
    split_ifs at h with hz
    have hz' : z.toNat < m := by omega
    have := removeRef_ok hz'
    rw [removeRef, if_pos (by omega)] at this
    have he : ((z.toNat : ℕ) : ℤ) = z := by omega
    rw [he] at this
    cases h
    rw [Except.ok.inj this, List.length_eraseIdx]
    simp [hz']
    omega
  · cases h

theorem interceptTerm_length {cls : ModelType} (hs : cls ≠ .scobit) {R : Type} {n : ℕ}
    {M : Matrix R (Fin n) ℝ} {ref : PyRef} {x : List ℝ} {a : R → ℝ} (hr : ref ≠ .none)
    (h : interceptTerm cls M ref (some x) = .ok a) : n = x.length + 1 ∨ x.length = 1 := by
  have h' : (removeRef n ref >>= fun idxs => scatter n idxs x >>= mappingDot M) = .ok a := by
    cases ref with
    | none => exact absurd rfl hr
    | _ => simpa [interceptTerm, hs] using h
  cases h1 : removeRef n ref with
  | error e => simp [h1, bind, Except.bind] at h'
  | ok idxs =>
    cases h2 : scatter n idxs x with
    | error e => simp [h1, h2, bind, Except.bind] at h'
    | ok out =>
      have := removeRef_length h1
      rcases (scatter_length h2).2 with h3 | h3
      · left; omega
      · right; exact h3

/-- The number of alternatives the shape parameters of a model are for. -/
def shapesFor (cls : ModelType) (numShapes : ℕ) : ℕ := if cls = .asym then numShapes + 1 else numShapes

/-- **C68** (different number of alternatives, shape models). A model with shape parameters never predicts
for a table whose number of alternatives is not the number its shape parameters are for. -/
theorem predict_wrong_count_shapes {env : Env ℝ} {m : ChoiceModel ℝ} {stored : ParamArrays}
    {df : Frame ℝ} {pl : Option ParamArrays} {rl : Bool} {cc : Option String} {alts shapes : List ℝ}
    (ha : AltsOf df m.args.altIdCol alts) (hcls : m.cls = .asym ∨ m.cls = .scobit ∨ m.cls = .uneven)
    (hs : (pl.getD stored).shapes = some shapes) (hne : alts.length ≠ shapesFor m.cls shapes.length) :
    ∃ e, predictFrame env m stored df pl rl cc = .error e := by
  cases hres : predictFrame env m stored df pl rl cc with
  | error e => exact ⟨e, rfl⟩
  | ok res =>
    exfalso
    obtain ⟨-, -, d, -, v, -, t, ht, -⟩ := predictFrame_ok.1 hres
    have e := altsOf_eq ha
    have hshape : ∃ c, shapeTerm m.cls (df.rowsToAlts m.args.altIdCol) m.args.shapeRefPos
        (pl.getD stored).shapes = .ok c := by
      rcases hcls with h | h | h <;> rw [h] at ht ⊢ <;> simp only [predictTransform] at ht
      all_goals
        cases h1 : shapeTerm _ (df.rowsToAlts m.args.altIdCol) m.args.shapeRefPos
            (pl.getD stored).shapes with
        | ok c => exact ⟨c, rfl⟩
        | error e =>
          simp only [h1, bind, Except.bind] at ht
          first
          | cases ht
          | (split at ht <;> cases ht)
    obtain ⟨c, hc⟩ := hshape
    obtain ⟨s, hs', hn⟩ := shapeTerm_length hc
    rw [hs] at hs'
    cases hs'
    rw [e] at hn
    exact hne hn

/-- **C68** (different number of alternatives, Clog-log). The same for the Clog-log model with two or more
outside intercepts. -/
theorem predict_wrong_count_intercepts {env : Env ℝ} {m : ChoiceModel ℝ} {stored : ParamArrays}
    {df : Frame ℝ} {pl : Option ParamArrays} {rl : Bool} {cc : Option String} {alts x : List ℝ}
    (ha : AltsOf df m.args.altIdCol alts) (hcls : m.cls = .cloglog)
    (href : m.args.interceptRefPos ≠ .none)
    (hs : (pl.getD stored).intercepts = some x) (hne : alts.length ≠ x.length + 1) (h1 : x.length ≠ 1) :
    ∃ e, predictFrame env m stored df pl rl cc = .error e := by
  cases hres : predictFrame env m stored df pl rl cc with
  | error e => exact ⟨e, rfl⟩
  | ok res =>
    exfalso
    obtain ⟨-, -, d, -, v, -, t, ht, -⟩ := predictFrame_ok.1 hres
    have e := altsOf_eq ha
    rw [hcls] at ht
    simp only [predictTransform, hs] at ht
    cases h2 : interceptTerm .cloglog (df.rowsToAlts m.args.altIdCol) m.args.interceptRefPos (some x) with
    | error e => simp [h2, bind, Except.bind] at ht
    | ok a =>
      rcases interceptTerm_length (by simp) href h2 with h3 | h3
      · rw [e] at h3; exact hne h3
      · exact h1 h3

/-- **C68** (different number of index coefficients). No model predicts for a table whose alternatives turn
the specification into a number of columns other than the number of index coefficients. -/
theorem predict_wrong_columns {env : Env ℝ} {m : ChoiceModel ℝ} {s : List (String × SpecVal ℝ)}
    (hspec : m.args.specification = encodeAll s) {stored : ParamArrays} {df : Frame ℝ}
    {pl : Option ParamArrays} {rl : Bool} {cc : Option String} {alts : List ℝ}
    (ha : AltsOf df m.args.altIdCol alts)
    (hne : (specColumns alts s).length ≠ (pl.getD stored).index.length) :
    ∃ e, predictFrame env m stored df pl rl cc = .error e := by
  cases hres : predictFrame env m stored df pl rl cc with
  | error e => exact ⟨e, rfl⟩
  | ok res =>
    exfalso
    obtain ⟨-, -, ⟨cols, nms⟩, hd, v, hv, -⟩ := predictFrame_ok.1 hres
    rw [hspec] at hd
    have := designDot_length hv
    simp only [design_entries ha hd, List.length_map] at this
    exact hne this

theorem encodeGroup_injective : Function.Injective (encodeGroup (V := ℝ)) := by
  have hnum : Function.Injective (PyVal.num (V := ℝ)) := fun _ _ h => by injection h
  intro a b h
  cases a <;> cases b <;> simp only [encodeGroup, reduceCtorEq] at h
  · injection h with h; rw [h]
  · injection h with h; rw [hnum.list_map h]

theorem encode_injective : Function.Injective (SpecVal.encode (V := ℝ)) := by
  intro a b h
  cases a <;> cases b <;> simp only [SpecVal.encode, reduceCtorEq] at h
  · rfl
  · simp at h
  · simp at h
  · rfl
  · injection h with h; rw [encodeGroup_injective.list_map h]

/-- **C68** (missing ids). No model predicts for a table that lacks an alternative the specification
mentions by id. -/
theorem predict_missing_id {env : Env ℝ} {m : ChoiceModel ℝ} {s : List (String × SpecVal ℝ)}
    (hspec : m.args.specification = encodeAll s) {stored : ParamArrays} {df : Frame ℝ}
    {pl : Option ParamArrays} {rl : Bool} {cc : Option String} {alts : List ℝ}
    (ha : AltsOf df m.args.altIdCol alts) {kv : String × SpecVal ℝ} (hkv : kv ∈ s)
    (hne : ¬ kv.2.ValidFor alts) :
    ∃ e, predictFrame env m stored df pl rl cc = .error e := by
  cases hres : predictFrame env m stored df pl rl cc with
  | error e => exact ⟨e, rfl⟩
  | ok res =>
    exfalso
    obtain ⟨-, -, ⟨cols, nms⟩, hd, -⟩ := predictFrame_ok.1 hres
    rw [hspec] at hd
    obtain ⟨-, -, hchk, -⟩ := (createDesignMatrix_ok_iff (altsOf_eq ha)).1 hd
    rw [checkSpecDict_ok_iff] at hchk
    obtain ⟨sv, hsv, hEnc⟩ := wellFormed_iff_encode.1 (hchk (kv.1, kv.2.encode)
      (List.mem_map.2 ⟨kv, hkv, rfl⟩))
    exact hne (encode_injective hEnc ▸ hsv)

/-- The alternative of `alts0` at the position that `a` has in `alts`. -/
noncomputable def samePosition (alts alts0 : List ℝ) (a : ℝ) : ℝ := alts0.getD (alts.idxOf a) 0

theorem map_samePosition {alts alts0 : List ℝ} (hnd : alts.Nodup) (hl : alts.length = alts0.length)
    (q : ℝ → ℝ) : alts.map (fun a => q (samePosition alts alts0 a)) = alts0.map q := by
  refine List.ext_getElem (by simp [hl]) fun i h1 h2 => ?_
  have hi : i < alts.length := by simpa using h1
  simp only [List.getElem_map, samePosition, hnd.idxOf_getElem i hi]
  rw [List.getD_eq_getElem?_getD, List.getElem?_eq_getElem (hl ▸ hi), Option.getD_some]

theorem listsOthers_samePosition {alts alts0 : List ℝ} (hnd : alts.Nodup)
    (hl : alts.length = alts0.length) {ref : PyRef} {q : ℝ → ℝ} {x : List ℝ}
    (h : ListsOthers alts0 ref q x) :
    ListsOthers alts ref (fun a => q (samePosition alts alts0 a)) x := by
  obtain ⟨z, hz, rfl, rfl, h0⟩ := h
  have hz' : z < alts.length := hl ▸ hz
  refine ⟨z, hz', rfl, ?_, ?_⟩
  · rw [← List.eraseIdx_map, ← List.eraseIdx_map, map_samePosition hnd hl]
  · simp only [samePosition, hnd.idxOf_getElem z hz']
    rw [List.getD_eq_getElem?_getD, List.getElem?_eq_getElem hz, Option.getD_some, h0]

/-- The parameters of `alts0`, handed to the alternatives of `alts` by position. -/
noncomputable def byPosition (alts alts0 : List ℝ) (q : AltParams) : AltParams where
  icpt a := q.icpt (samePosition alts alts0 a)
  shape a := q.shape (samePosition alts alts0 a)

theorem holdsFor_byPosition {cls : ModelType} {alts alts0 : List ℝ} (hnd : alts.Nodup)
    (hl : alts.length = alts0.length) {icptRef shapeRef : PyRef} {p : ParamArrays} {q : AltParams}
    (h : HoldsFor cls alts0 icptRef shapeRef p q) :
    HoldsFor cls alts icptRef shapeRef p (byPosition alts alts0 q) where
  noIcpt hn a ha := by
    refine h.noIcpt hn _ ?_
    have hlt : alts.idxOf a < alts0.length := hl ▸ List.idxOf_lt_length_of_mem ha
    simp only [samePosition]
    rw [List.getD_eq_getElem?_getD, List.getElem?_eq_getElem hlt, Option.getD_some]
    exact List.getElem_mem hlt
  icpt x hx := listsOthers_samePosition hnd hl (h.icpt x hx)
  shape hc := by rw [h.shape hc]; congr 1; exact (map_samePosition hnd hl q.shape).symm
  eta hc := by
    obtain ⟨x, hx, hlo⟩ := h.eta hc
    exact ⟨x, hx, listsOthers_samePosition hnd hl hlo⟩

/-- **C68** (disagreement). The set of alternatives is never compared with the one of the estimation data.
When the table has as many alternatives as there were at estimation (`alts0`), but others, `predict` does not
fail: it gives each row the intercept and the shape of the estimation alternative at the same position. -/
theorem predict_positional {env : Env ℝ} {m : ChoiceModel ℝ} {s : List (String × SpecVal ℝ)}
    (hspec : m.args.specification = encodeAll s) {stored : ParamArrays} {df : Frame ℝ}
    {pl : Option ParamArrays} {rl : Bool} {cc : Option String} {res} {alts alts0 : List ℝ}
    {q : AltParams} (ha : AltsOf df m.args.altIdCol alts) (hl : alts.length = alts0.length)
    (hasym : m.cls = .asym → 2 ≤ alts.length)
    (hp : HoldsFor m.cls alts0 m.args.interceptRefPos m.args.shapeRefPos (pl.getD stored) q)
    (h : predictFrame env m stored df pl rl cc = .ok res) :
    res = predictedParts df m.args.obsIdCol (clippedLogit (df.val m.args.obsIdCol) fun r =>
      rowUtility m.cls alts (byPosition alts alts0 q) (df.val m.args.altIdCol r)
        (rowIndex df m.args.altIdCol (specColumns alts s) (pl.getD stored).index r)) cc rl :=
  predict_right_alternatives_partial hspec ha hasym
    (holdsFor_byPosition (ha.ascending.imp fun h => ne_of_lt h) hl hp) h

/-- **C68** (disagreement). A Clog-log model for two alternatives has one outside intercept.  On a table with
any number of alternatives that intercept is silently used for every alternative except the one at the
reference position. -/
theorem predict_single_intercept {env : Env ℝ} {m : ChoiceModel ℝ} {s : List (String × SpecVal ℝ)}
    (hspec : m.args.specification = encodeAll s) (hcls : m.cls = .cloglog) {stored : ParamArrays}
    {df : Frame ℝ} {pl : Option ParamArrays} {rl : Bool} {cc : Option String} {res} {alts : List ℝ}
    (ha : AltsOf df m.args.altIdCol alts) {z : ℕ} (hz : z < alts.length)
    (href : m.args.interceptRefPos = .int z) {α : ℝ} (hx : (pl.getD stored).intercepts = some [α])
    (h : predictFrame env m stored df pl rl cc = .ok res) :
    res = predictedParts df m.args.obsIdCol (clippedLogit (df.val m.args.obsIdCol) fun r =>
      rowUtility .cloglog alts ⟨fun a => if a = alts[z] then 0 else α, 0⟩ (df.val m.args.altIdCol r)
        (rowIndex df m.args.altIdCol (specColumns alts s) (pl.getD stored).index r)) cc rl := by
  obtain ⟨h1, h2, d, hd, v, hv, t, ht, hres⟩ := predictFrame_ok.1 h
  have hnd : alts.Nodup := ha.ascending.imp fun h => ne_of_lt h
  set q : AltParams := ⟨fun a => if a = alts[z] then 0 else α, 0⟩ with hq
  have hmap : (alts.eraseIdx z).map q.icpt = List.replicate (alts.length - 1) α := by
    rw [List.eq_replicate_iff]
    refine ⟨by simp [List.length_eraseIdx, hz], fun b hb => ?_⟩
    obtain ⟨a, ha', rfl⟩ := List.mem_map.1 hb
    have : a ≠ alts[z] := by
      rintro rfl
      rw [List.mem_eraseIdx_iff_getElem] at ha'
      obtain ⟨i, hi, hne, e⟩ := ha'
      exact hne ((hnd.getElem_inj_iff).1 e)
    simp [hq, this]
  have hs : scatter alts.length ((List.range alts.length).eraseIdx z) [α] = .ok (alts.map q.icpt) := by
    have h0 := scatter_listsOthers hz (q := q.icpt) (by simp [hq])
    have hbound : ¬ ∃ i ∈ (List.range alts.length).eraseIdx z, alts.length ≤ i := by
      rintro ⟨i, hi, hle⟩
      have := List.mem_of_mem_eraseIdx hi
      rw [List.mem_range] at this
      omega
    rw [hmap] at h0
    unfold scatter at h0 ⊢
    have hlen : ((List.range alts.length).eraseIdx z).length = alts.length - 1 := by
      simp [List.length_eraseIdx, hz]
    rw [if_neg hbound, if_pos (by simp [hlen])] at h0
    rw [if_neg hbound, ← h0]
    have hgoal : ((List.range alts.length).map fun j => if j ∈ (List.range alts.length).eraseIdx z then
          α else 0) = (List.range alts.length).map fun j =>
        if j ∈ (List.range alts.length).eraseIdx z then
          (List.replicate (alts.length - 1) α).getD (((List.range alts.length).eraseIdx z).idxOf j) 0
        else 0 := by
      refine List.map_congr_left fun j _ => ?_
      split_ifs with hj
      · have hlt := List.idxOf_lt_length_of_mem hj
        rw [hlen] at hlt
        simp [List.getD_eq_getElem?_getD, List.getElem?_replicate, hlt]
      · rfl
    split_ifs with h3
    · have h4 : alts.length - 1 = 1 := by rw [← hlen, ← h3]; rfl
      rw [← hgoal]
      congr 1
      refine List.map_congr_left fun j _ => ?_
      split_ifs with hj
      · have hlt := List.idxOf_lt_length_of_mem hj
        rw [hlen, h4, Nat.lt_one_iff] at hlt
        simp [hlt]
      · rfl
    · exact congrArg Except.ok hgoal
  have hi : interceptTerm .cloglog (df.rowsToAlts m.args.altIdCol) (.int z) (some [α]) =
      .ok fun r => q.icpt (df.val m.args.altIdCol r) := by
    have e := altsOf_eq ha
    have hs' : scatter (npSort (npUnique (df.colList m.args.altIdCol))).length
        ((List.range alts.length).eraseIdx z) [α] = .ok (alts.map q.icpt) := by rw [e]; exact hs
    have hr : removeRef (npSort (npUnique (df.colList m.args.altIdCol))).length (.int z) =
        .ok ((List.range alts.length).eraseIdx z) := by rw [e]; exact removeRef_ok hz
    simp only [interceptTerm, reduceCtorEq, if_false, hr, hs', bind, Except.bind]
    exact mappingDot_map ha _
  have hd' := hd
  rw [hspec] at hd'
  have hcols := design_entries (nms := d.2) (cols := d.1) ha hd'
  have hlen := designDot_length hv
  rw [hcols] at hv hlen
  rw [designDot_ok (by simpa using hlen.symm)] at hv
  have ht' : predictTransform .cloglog (df.rowsToAlts m.args.altIdCol) (.int z) m.args.shapeRefPos
      (pl.getD stored) v = .ok fun r => rowUtility .cloglog alts q (df.val m.args.altIdCol r) (v r) := by
    have := transform_ok (cls := .cloglog) ha (by simp) (icptRef := .int z) (shapeRef := .none)
      (p := ⟨[], some ((alts.eraseIdx z).map q.icpt), none, none⟩) (q := q)
      ⟨by simp, by rintro x ⟨⟩; exact ⟨z, hz, rfl, rfl, by simp [hq]⟩, by simp, by simp⟩ v
    have hi2 : interceptTerm .cloglog (df.rowsToAlts m.args.altIdCol) (.int z)
        (some ((alts.eraseIdx z).map q.icpt)) = .ok fun r => q.icpt (df.val m.args.altIdCol r) :=
      interceptTerm_ok ha ⟨z, hz, rfl, rfl, by simp [hq]⟩
    simp only [predictTransform, hi2, bind, Except.bind] at this
    simp only [predictTransform, hx, hi, bind, Except.bind, this]
  rw [hcls, href, ht'] at ht
  rw [hres, probParts_eq, ← Except.ok.inj ht, ← Except.ok.inj hv]
  rfl

/-! ### A concrete model and tables -/

/-- A Clog-log model of a generic variable with an outside intercept relative to the first alternative. -/
def exClog : ChoiceModel ℝ where
  cls := .cloglog
  displayName := "Multinomial Clog-log Model"
  data := ⟨[], 0, fun _ => Fin.elim0⟩
  design := []
  indVarNames := [.str "x"]
  args := { altIdCol := "alt", obsIdCol := "obs", choiceCol := "y"
            specification := encodeAll [("x", SpecVal.allSame)], names := none
            interceptRefPos := .int 0, shapeRefPos := .none, interceptNames := none, shapeNames := none
            nestSpec := none, mixingIdCol := none, mixingVars := none }
  mixingPos := none

/-- One observation of two alternatives with the given ids. -/
def exTable (a b : ℝ) : Frame ℝ where
  columns := ["obs", "alt", "x"]
  numRows := 2
  val := fun c => if c = "alt" then ![a, b] else if c = "x" then ![1, 2] else ![1, 1]

theorem exTable_alts {a b : ℝ} (h : a < b) : AltsOf (exTable a b) "alt" [a, b] where
  ascending := by simp [h]
  mem x := by
    constructor
    · intro hx
      rcases List.mem_cons.1 hx with rfl | hx
      · exact ⟨(0 : Fin 2), rfl⟩
      · rw [List.mem_singleton.1 hx]; exact ⟨(1 : Fin 2), rfl⟩
    · rintro ⟨r, rfl⟩
      change Fin 2 at r
      fin_cases r <;> simp [exTable]

/-- The parameters estimated for alternatives 1 and 2: coefficient 1/2, intercept 5 for alternative 2. -/
noncomputable def exStored : ParamArrays := ⟨[1 / 2], some [5], none, none⟩

theorem exStored_holds (a b : ℝ) (hab : a ≠ b) :
    HoldsFor .cloglog [a, b] (.int 0) .none exStored ⟨fun x => if x = b then 5 else 0, 0⟩ where
  noIcpt h := by cases h
  icpt x h := by
    cases h
    exact ⟨0, by simp, rfl, by simp, by simp [hab]⟩
  shape h := by simp at h
  eta h := by simp at h

theorem exClog_predicts (env : Env ℝ) (a b : ℝ) (hab : a < b) :
    predictFrame env exClog exStored (exTable a b) none true none =
      .ok (.long fun r _ => clippedLogit ((exTable a b).val "obs") (fun r =>
        rowUtility .cloglog [a, b] ⟨fun x => if x = b then 5 else 0, 0⟩ ((exTable a b).val "alt" r)
          ((exTable a b).val "x" r * (1 / 2) + 0)) r) :=
  predict_succeeds env exClog (s := [("x", .allSame)]) rfl rfl rfl exStored (exTable a b) true none
    (exTable_alts hab) (by simp [exClog]) (exStored_holds a b hab.ne) (by simp [exClog, exTable])
    (by simp [exClog, exTable]) (by simp [exTable]) (by simp [SpecVal.ValidFor])
    (by simp [specColumns, SpecVal.columns]) (by simp [specColumns, SpecVal.columns, exStored])
    (by simp) (Or.inl rfl)

/-- **C68** (disagreement, concrete). The model estimated on alternatives 1 and 2 has intercept 5 for
alternative 2 and 0 for alternative 1.  On a table with alternatives 2 and 3 `predict` returns, and uses
intercept 0 for alternative 2 and 5 for alternative 3. -/
theorem predict_misapplied (env : Env ℝ) :
    HoldsFor .cloglog [1, 2] (.int 0) .none exStored ⟨fun x => if x = 2 then 5 else 0, 0⟩ ∧
      AltsOf (exTable 2 3) "alt" [2, 3] ∧
      predictFrame env exClog exStored (exTable 2 3) none true none =
        .ok (.long fun r _ => clippedLogit ((exTable 2 3).val "obs") (fun r =>
          rowUtility .cloglog [2, 3] ⟨fun x => if x = 3 then 5 else 0, 0⟩ ((exTable 2 3).val "alt" r)
            ((exTable 2 3).val "x" r * (1 / 2) + 0)) r) :=
  ⟨exStored_holds 1 2 (by norm_num), exTable_alts (by norm_num), exClog_predicts env 2 3 (by norm_num)⟩

/-- The hypotheses of `predict_right_alternatives_partial` are met on a table with the alternatives of the
estimation. -/
example (env : Env ℝ) : ∃ res, predictFrame env exClog exStored (exTable 1 2) none true none = .ok res ∧
    AltsOf (exTable 1 2) "alt" [1, 2] ∧
    HoldsFor exClog.cls [1, 2] exClog.args.interceptRefPos exClog.args.shapeRefPos
      ((none : Option ParamArrays).getD exStored) ⟨fun x => if x = 2 then 5 else 0, 0⟩ :=
  ⟨_, exClog_predicts env 1 2 (by norm_num), exTable_alts (by norm_num), exStored_holds 1 2 (by norm_num)⟩

end Pylogit
