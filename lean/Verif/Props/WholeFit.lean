import Verif.Spec.WholeFit
import Verif.Props.FitLogLik
import Verif.Props.NullModel
import Verif.Props.Identification
import Verif.Props.Fisher
import Verif.Props.Definiteness
import Verif.Props.HessianBlocks
import Verif.Props.LongToWide
import Verif.Props.Attained

/-!
# What a fit reports about its table is right (C109)
-/

open Matrix

namespace Pylogit

open Spec

noncomputable section

/-! ## Helper lemmas: tables in long format -/

theorem ids_eq {df : Frame ℝ} {col : String} {ids : List ℝ} (hs : (df.colList col).Pairwise (· ≤ ·))
    (hi : AltsOf df col ids) : originalOrderUniqueIds (df.colList col) = ids := by
  refine List.Perm.eq_of_pairwise (le := (· < ·)) (fun a b _ _ hab hba => absurd hab (lt_asymm hba)) ?_
    hi.ascending ?_
  · have hp := originalOrder_pairwise (df.colList col)
    refine hp.imp_of_mem fun {a b} ha hb hab => ?_
    rw [mem_originalOrder] at ha hb
    have h1 := List.idxOf_lt_length_of_mem ha
    have h2 := List.idxOf_lt_length_of_mem hb
    have := List.pairwise_iff_getElem.1 hs _ _ h1 h2 hab
    rw [List.getElem_idxOf, List.getElem_idxOf] at this
    refine lt_of_le_of_ne this fun e => ?_
    rw [e] at hab
    exact lt_irrefl _ hab
  · rw [List.perm_ext_iff_of_nodup (originalOrder_nodup _) (hi.ascending.imp fun h => ne_of_lt h)]
    intro a
    rw [mem_originalOrder, hi.mem, Frame.colList, List.mem_ofFn]

theorem ofFn_ids {df : Frame ℝ} {col : String} {ids : List ℝ} (hs : (df.colList col).Pairwise (· ≤ ·))
    (hi : AltsOf df col ids) {β : Type} (g : ℝ → β) :
    List.ofFn (fun o => g ((originalOrderUniqueIds (df.colList col)).get o)) = ids.map g := by
  rw [← ids_eq hs hi]
  apply List.ext_getElem
  · simp
  · intro i h1 h2; simp

theorem table_choice {df : Frame ℝ} {obsCol choiceCol : String} {chosen : ℝ → Fin df.numRows}
    (hc : OneChoicePerObs df obsCol choiceCol chosen) :
    ∃ (f : Fin df.numRows → Fin (originalOrderUniqueIds (df.colList obsCol)).length) (c : _),
      Indicates (df.rowsToObs obsCol) f ∧ OneChoice f (df.val choiceCol) c ∧
      (∀ r o, f r = o ↔ df.val obsCol r = (originalOrderUniqueIds (df.colList obsCol)).get o) := by
  obtain ⟨f, hf, hiff⟩ := df.rowsToObs_indicates obsCol
  refine ⟨f, fun o => chosen ((originalOrderUniqueIds (df.colList obsCol)).get o), hf, ⟨?_, ?_, ?_⟩, hiff⟩
  · intro o
    obtain ⟨r, hr⟩ := mem_colList.1 (mem_originalOrder.1 (List.get_mem _ o))
    rw [hiff, ← hr]
    exact hc.mem r
  · intro o
    obtain ⟨r, hr⟩ := mem_colList.1 (mem_originalOrder.1 (List.get_mem _ o))
    rw [← hr]
    exact hc.one r
  · intro r hr
    rw [← (hiff r (f r)).1 rfl] at hr
    exact hc.zero r hr

theorem clipped_same {df : Frame ℝ} {obsCol : String} {O : Type} [Fintype O] [DecidableEq O]
    {f : Fin df.numRows → O} {uid : O → ℝ} (hiff : ∀ r o, f r = o ↔ df.val obsCol r = uid o)
    (h : Fin df.numRows → ℝ) : clippedLogit f h = clippedLogit (df.val obsCol) h := by
  funext r
  rw [clippedLogit, clippedLogit, logitProb, logitProb]
  congr 1
  refine Finset.sum_congr ?_ fun _ _ => rfl
  ext s
  rw [mem_rowsOf, mem_rowsOf, hiff, ← (hiff r (f r)).1 rfl]

theorem card_same {df : Frame ℝ} {obsCol : String} {O : Type} [Fintype O] [DecidableEq O]
    {f : Fin df.numRows → O} {uid : O → ℝ} (hiff : ∀ r o, f r = o ↔ df.val obsCol r = uid o)
    (r : Fin df.numRows) : rowsOf f (f r) = rowsOf (df.val obsCol) (df.val obsCol r) := by
  ext s
  rw [mem_rowsOf, mem_rowsOf, hiff, ← (hiff r (f r)).1 rfl]

private lemma table_logLik {m : ChoiceModel ℝ} (ids : List ℝ) {O : Type} [Fintype O] [DecidableEq O]
    {f : Fin m.data.numRows → O} {c : O → Fin m.data.numRows} {uid : O → ℝ}
    (hc : OneChoice f (m.data.val m.args.choiceCol) c)
    (hiff : ∀ r o, f r = o ↔ m.data.val m.args.obsIdCol r = uid o) (ridge : Option ℝ) {n : ℕ}
    (U : (Fin n → ℝ) → Fin m.data.numRows → ℝ) (θ : Fin n → ℝ) :
    (tableOf m ids).logLik ridge U θ = penalisedLogLik c none ridge (fun θ => clippedLogit f (U θ)) θ := by
  unfold LongData.logLik penalisedLogLik LongData.prob LongData.y
  simp only [tableOf, Option.getD_none, one_mul, clipped_same hiff]
  exact congrArg (· - _) (sum_choice hc fun r => Real.log (clippedLogit (m.data.val m.args.obsIdCol) (U θ) r))

theorem obs_sum (df : Frame ℝ) (col : String) (g : Fin df.numRows → ℝ)
    (o : Fin (originalOrderUniqueIds (df.colList col)).length) :
    ((df.rowsToObs col)ᵀ *ᵥ g) o =
      ∑ r with df.val col r = (originalOrderUniqueIds (df.colList col)).get o, g r := by
  obtain ⟨f, hf, hiff⟩ := df.rowsToObs_indicates col
  simp only [mulVec, dotProduct, transpose_apply, Finset.sum_filter]
  refine Finset.sum_congr rfl fun r _ => ?_
  rw [hf r o]
  simp only [hiff]
  split_ifs <;> simp

theorem chosen_sum (df : Frame ℝ) (col choice : String) (h : Fin df.numRows → ℝ)
    (o : Fin (originalOrderUniqueIds (df.colList col)).length) :
    chosenProbs (df.rowsToObs col) (Matrix.of fun r o => df.rowsToObs col r o * df.val choice r) h o =
      ∑ r with df.val col r = (originalOrderUniqueIds (df.colList col)).get o,
        df.val choice r * clippedLogit (df.val col) h r := by
  have := probParts_eq df col h (some choice) false
  simp only [probParts, predictedParts, Option.map_some] at this
  injection this with this
  exact congrFun (congrFun this o) 0

theorem sum_of_groups (df : Frame ℝ) (col : String) (g : Fin df.numRows → ℝ) {ids : List ℝ}
    (hi : AltsOf df col ids) : (ids.map fun i => ∑ r with df.val col r = i, g r).sum = ∑ r, g r := by
  have hn : ids.Nodup := hi.ascending.imp fun h => ne_of_lt h
  rw [← List.sum_toFinset _ hn]
  rw [Finset.sum_fiberwise_of_maps_to (fun r _ => by
    rw [List.mem_toFinset, hi.mem]
    exact ⟨r, rfl⟩)]

/-! ## What an estimation object has to satisfy -/

/-- The estimation object `obj` of the model `m` works with the utilities `U` of the rows of the model's table; its
derivatives are right where `Dom` holds. -/
structure Describes (m : ChoiceModel ℝ) (obj : LogitObject) (ids : List ℝ) (ridge : Option ℝ)
    (U : (Fin obj.n → ℝ) → Fin m.data.numRows → ℝ) (Dom : (Fin obj.n → ℝ) → Prop) : Prop where
  logLik : ∀ con θ, (obj.est con).logLik θ = (tableOf m ids).logLik ridge U θ
  null : (tableOf m ids).logLik ridge U (fun _ => 0) = (tableOf m ids).equalShares
  gradient : ∀ con θ, Dom θ → (∀ r, |U θ r| < 700) →
    HasPartials ((tableOf m ids).logLik ridge U) ((obj.est con).gradient θ) θ
  fisher : ∀ θ, Dom θ → (∀ r, |U θ r| < 700) → ∃ S : Fin m.data.numRows → Fin obj.n → ℝ,
    (∀ r, (tableOf m ids).y r = 1 → HasPartials (fun θ => Real.log ((tableOf m ids).prob (U θ) r)) (S r) θ) ∧
    ∀ i j, obj.fisher θ i j = ∑ r, (tableOf m ids).y r * (S r i * S r j) -
      2 * ridge.getD 0 * (if i = j then 1 else 0)
  hessian : ∀ con θ, SymmBelow (2 * ridge.getD 0) ((obj.est con).hessian θ)
  covariance : ∀ con θ, Dom θ → (tableOf m ids).CovHessian ridge U ((obj.est con).hessian θ) θ
  probs : ∀ θ, ∃ h, (∀ r, h r = U θ r) ∧ fitProbs m (List.ofFn θ) =
    .ok (chosenProbs (m.data.rowsToObs m.args.obsIdCol)
      (Matrix.of fun r o => m.data.rowsToObs m.args.obsIdCol r o * m.data.val m.args.choiceCol r) h,
      longProbs (m.data.rowsToObs m.args.obsIdCol) h)
  split : ∀ θ : Fin obj.n → ℝ,
    let sp := splitParamVec m.cls (fitDims m) (List.ofFn θ)
    sp.nests.getD [] ++ (sp.shapes.getD [] ++ (sp.intercepts.getD [] ++ sp.index)) = List.ofFn θ
  constrained : ∀ con, (obj.est con).constrainedPos = con

private lemma nsd_variances {n : ℕ} {H : Matrix (Fin n) (Fin n) ℝ} (h : SymmNSD H) (hu : IsUnit H.det) (i : Fin n) :
    0 < (-H⁻¹) i i := by
  have hpsd : (-H).PosSemidef := by
    rw [Matrix.posSemidef_iff_dotProduct_mulVec]
    refine ⟨?_, fun x => ?_⟩
    · rw [Matrix.IsHermitian, Matrix.conjTranspose_eq_transpose_of_trivial, Matrix.transpose_neg, h.1]
    · rw [Matrix.neg_mulVec, dotProduct_neg]
      simpa using h.2 x
  have hu' : IsUnit (-H) := by
    rw [IsUnit.neg_iff]
    exact (Matrix.isUnit_iff_isUnit_det H).2 hu
  have hpd : (-H).PosDef := hpsd.posDef_iff_isUnit.2 hu'
  have e : -H⁻¹ = (-H)⁻¹ := by
    symm
    apply Matrix.inv_eq_left_inv
    rw [neg_mul_neg, Matrix.nonsing_inv_mul _ hu]
  rw [e]
  exact hpd.inv.diag_pos

theorem adjust_spec {n : ℕ} {names : Fin n → String} {con : Option (List ℤ)} {inf inf' : Inference n}
    (h : adjustInference names con inf = .ok inf') (hin : ∀ z ∈ con.getD [], ∃ i, PosIs n z i) :
    inf'.cov = inf.cov ∧ inf'.robustCov = inf.robustCov ∧
    ∀ i, (FixedLabel names con i → inf'.stdErrs i = none ∧ inf'.tvalues i = none ∧ inf'.pvalues i = none ∧
        inf'.robustStdErrs i = none ∧ inf'.robustTStats i = none ∧ inf'.robustPVals i = none) ∧
      (¬ FixedLabel names con i → inf'.stdErrs i = inf.stdErrs i ∧ inf'.tvalues i = inf.tvalues i ∧
        inf'.pvalues i = inf.pvalues i ∧ inf'.robustStdErrs i = inf.robustStdErrs i ∧
        inf'.robustTStats i = inf.robustTStats i ∧ inf'.robustPVals i = inf.robustPVals i) := by
  cases con with
  | none =>
    cases h
    exact ⟨rfl, rfl, fun i => ⟨by simp [FixedLabel], fun _ => ⟨rfl, rfl, rfl, rfl, rfl, rfl⟩⟩⟩
  | some cs =>
    obtain ⟨y1, e1, s1⟩ := adjustSeries_spec names inf.stdErrs cs hin
    obtain ⟨y2, e2, s2⟩ := adjustSeries_spec names inf.tvalues cs hin
    obtain ⟨y3, e3, s3⟩ := adjustSeries_spec names inf.pvalues cs hin
    obtain ⟨y4, e4, s4⟩ := adjustSeries_spec names inf.robustStdErrs cs hin
    obtain ⟨y5, e5, s5⟩ := adjustSeries_spec names inf.robustTStats cs hin
    obtain ⟨y6, e6, s6⟩ := adjustSeries_spec names inf.robustPVals cs hin
    simp only [adjustInference, e1, e2, e3, e4, e5, e6, bind, Except.bind, pure, Except.pure,
      Except.ok.injEq] at h
    subst h
    refine ⟨rfl, rfl, fun i => ⟨fun hf => ?_, fun hf => ?_⟩⟩
    · exact ⟨(s1 i).1 hf, (s2 i).1 hf, (s3 i).1 hf, (s4 i).1 hf, (s5 i).1 hf, (s6 i).1 hf⟩
    · have : ∀ pos ∈ cs, ∀ j, PosIs n pos j → names j ≠ names i := by
        intro pos hp j hj e
        exact hf ⟨pos, hp, j, hj, e⟩
      exact ⟨(s1 i).2 this, (s2 i).2 this, (s3 i).2 this, (s4 i).2 this, (s5 i).2 this, (s6 i).2 this⟩

theorem constrainedArg_ok {n : ℕ} {con : Option (List ℤ)} {ps : Option (List (Fin n))}
    (h : constrainedArg n con = .ok ps) : ∀ z ∈ con.getD [], ∃ i, PosIs n z i := by
  cases con with
  | none => simp
  | some l =>
    simp only [constrainedArg, bind, Except.bind] at h
    split at h
    · cases h
    rename_i qs hq
    intro z hz
    have hz : z ∈ l := hz
    obtain ⟨i, hi⟩ : ∃ i, arrayPos n z = .ok i := by
      clear h
      induction l generalizing qs with
      | nil => simp at hz
      | cons a l ih =>
        rw [List.mapM_cons] at hq
        simp only [bind, Except.bind, pure, Except.pure] at hq
        split at hq
        · cases hq
        rename_i i hi
        split at hq
        · cases hq
        rename_i rest hr
        rcases List.mem_cons.1 hz with rfl | hz
        · exact ⟨i, hi⟩
        · exact ih rest hr hz hz
    refine ⟨i, ?_⟩
    unfold arrayPos at hi
    dsimp only at hi
    split at hi <;> split at hi
    · rename_i h1 h2
      cases hi
      right
      simp only
      omega
    · cases hi
    · rename_i h1 h2
      cases hi
      left
      simp only
      omega
    · cases hi

theorem arrayPos_ok {n : ℕ} {z : ℤ} {i : Fin n} : arrayPos n z = .ok i ↔ PosIs n z i := by
  unfold arrayPos PosIs
  have hi := i.2
  dsimp only
  split_ifs with h0 h h
  · simp only [Except.ok.injEq, Fin.ext_iff]
    omega
  · simp only [false_iff]
    omega
  · simp only [Except.ok.injEq, Fin.ext_iff]
    omega
  · simp only [false_iff]
    omega

/-- The constrained positions, as positions of the parameter array. -/
theorem constrainedArg_mem {n : ℕ} {con : Option (List ℤ)} {ps : Option (List (Fin n))}
    (h : constrainedArg n con = .ok ps) (i : Fin n) : i ∈ ps.getD [] ↔ ∃ z ∈ con.getD [], PosIs n z i := by
  cases con with
  | none =>
    cases h
    simp
  | some l =>
    simp only [constrainedArg, bind, Except.bind] at h
    split at h
    · cases h
    rename_i qs hq
    cases h
    simp only [Option.getD_some]
    induction l generalizing qs with
    | nil =>
      cases hq
      simp
    | cons a l ih =>
      rw [List.mapM_cons] at hq
      simp only [bind, Except.bind, pure, Except.pure] at hq
      split at hq
      · cases hq
      rename_i j hj
      split at hq
      · cases hq
      rename_i rest hr
      cases hq
      rw [List.mem_cons, ih _ hr, List.exists_mem_cons_iff, ← arrayPos_ok, hj]
      simp [eq_comm]

/-- What the optimiser is given by an estimation object. -/
theorem optimiser_report {solver : Solver} {n : ℕ} {e : Estimator (Fin n)} {con : Option (List ℤ)}
    {ps : Option (List (Fin n))} (hps : constrainedArg n con = .ok ps) (hcon : e.constrainedPos = ps)
    {LL : (Fin n → ℝ) → ℝ} (hL : ∀ θ, e.logLik θ = LL θ) {Good : (Fin n → ℝ) → Prop} {E : (Fin n → ℝ) → Fin n → ℝ}
    (hG : ∀ θ, Good θ → HasPartials LL (fun i => e.gradient θ i - E θ i) θ) {x₀ : List ℝ} (hx : x₀.length = n)
    {rep : OptReport n} (hrep : solver n e.negLLAndGrad (fun i => x₀.getD i 0) e.negHessian = .ok rep)
    {t : FitAttrs} (h1 : t.success = some rep.success) (h2 : t.message = some rep.message) :
    OptimiserReport solver x₀ con LL Good E rep.x (e.hessian rep.x) t := by
  refine ⟨hx, _, _, rep, hrep, rfl, h1, h2, by simp [Estimator.negHessian], fun θ => ?_, fun θ i hi => ?_,
    fun θ hθ i hi => ?_⟩
  · rw [constrained_gradient_fst, hL]
  · rw [← constrainedArg_mem hps, ← hcon] at hi
    refine (constrained_gradient e θ i).2.1 ?_
    cases hc : e.constrainedPos with
    | none => simp [hc] at hi
    | some l => exact ⟨l, rfl, by simpa [hc] using hi⟩
  · have hni : i ∉ ps.getD [] := by
      rw [constrainedArg_mem hps]
      rintro ⟨z, hz, hp⟩
      exact hi z hz hp
    rw [(constrained_gradient e θ i).2.2 (by
      intro l hl hmem
      rw [hcon] at hl
      subst hl
      exact hni hmem)]
    refine (hG θ hθ i).fun_neg.congr_deriv ?_
    ring

theorem optimiser_report_mono {solver : Solver} {n : ℕ} {x₀ : List ℝ} {con : Option (List ℤ)} {LL : (Fin n → ℝ) → ℝ}
    {Good Good' : (Fin n → ℝ) → Prop} {E : (Fin n → ℝ) → Fin n → ℝ} {x : Fin n → ℝ} {H : Matrix (Fin n) (Fin n) ℝ}
    {t : FitAttrs} (h : OptimiserReport solver x₀ con LL Good E x H t) (hG : ∀ θ, Good' θ → Good θ) :
    OptimiserReport solver x₀ con LL Good' E x H t := by
  obtain ⟨h0, f, g, rep, h1, h2, h3, h4, h5, h6, h7, h8⟩ := h
  exact ⟨h0, f, g, rep, h1, h2, h3, h4, h5, h6, h7, fun θ hθ => h8 θ (hG θ hθ)⟩

/-! ## From the estimation object to the stored attributes -/

/-- What is stored of the results `r` of a fit, when storing raises no exception. -/
theorem store_reports {D : LongData} {p : Fin D.df.numRows → ℝ} {r : FitResults} {sf : ℝ → ℝ} {s t : FitAttrs}
    (hst : storeFitResults sf r s = (t, none)) (x : Fin r.n → ℝ) (hsplit : allParams r = List.ofFn x)
    (hrho : r.rhoSq = 1 - r.finalLL / r.nullLL) (hbar : r.rhoBarSq = 1 - (r.finalLL - r.n) / r.nullLL)
    (hobs : r.chosenProbs.length = D.ids.length) :
    ∃ labels : Fin r.n → String, List.ofFn labels = allNames r (addMixingNames s.names) ∧
      FitStatistics D r.finalLL r.nullLL labels x t ∧
      (r.longProbs = (List.ofFn fun q => [p q]) →
        r.chosenProbs = (D.ids.map fun i => [∑ q ∈ D.rows i, D.y q * p q]) →
        r.residuals = (List.ofFn fun q => [D.y q - p q]) →
        r.indChi = (D.ids.map fun i => [∑ q ∈ D.rows i, (D.y q - p q) ^ 2 / p q]) →
        (D.ids.map fun i => ∑ q ∈ D.rows i, (D.y q - p q) ^ 2 / p q).sum = ∑ q, (D.y q - p q) ^ 2 / p q →
        FitProbabilities D p t) ∧
      t.gradient = some ⟨List.ofFn labels, List.ofFn r.gradient⟩ ∧
      t.success = some r.success ∧ t.message = some r.message ∧
      t.longFittedProbs = some r.longProbs ∧ t.fittedProbs = some r.chosenProbs ∧
      t.longResiduals = some r.residuals ∧ t.indChiSquareds = some r.indChi ∧
      t.chiSquare = some (r.indChi.map List.sum).sum ∧
      (SymmNSD r.hessian → (∀ z ∈ r.constrained.getD [], ∃ i, PosIs r.n z i) →
        InferenceReport sf labels r.constrained x r.hessian r.fisher t) := by
  obtain ⟨names, inf, inf', hinf, hadj, e1, e2, e3, e4, f1, f2, f3, e5, e6, e7, e8, e9, e10, e29, e11, e12, e13, e14,
    e15, e16, e17, e18, e19, e26, e20, e21, e27, e28, e22, e23, e24, e25, -⟩ :=
    store_fit_consistent sf r s t hst x hsplit
  have hlab := store_fit_labels sf r s t hst
  rw [e1] at hlab
  simp only [Option.map_some, Option.some.injEq] at hlab
  obtain ⟨hu, rfl⟩ := storeInference_ok hinf
  refine ⟨names, hlab, ?_, fun a1 a2 a3 a4 a5 => ?_, e6, e27, e28, e22, e14, e23, e24, e25, fun hnsd hcon => ?_⟩
  · constructor
    · exact e1
    · exact e11
    · rw [e12, e11]
    · exact e13
    · rw [e20, hrho]
    · rw [e21, hbar]
    · exact e18
    · rw [e19, hobs]
    · rw [e15, hobs]
    · rw [e16]
    · rw [e17, hobs]
    · exact ⟨_, e28, by rw [e26, hobs, hrho, hbar]⟩
  · exact ⟨by rw [e22, a1], by rw [e14, a2], by rw [e23, a3], by rw [e24, a4], by
      rw [e25, a4]
      simp only [List.map_map, Function.comp_def, List.sum_singleton]
      exact congrArg some a5⟩
  · obtain ⟨q1, q2, q3⟩ := adjust_spec hadj hcon
    have hv := nsd_variances hnsd hu
    have hcov : inf'.cov = -(r.hessian)⁻¹ := q1.trans (neg_one_smul ℝ _)
    have hneg : ∀ i, ((-1 : ℝ) • (r.hessian)⁻¹) i i = (-(r.hessian)⁻¹) i i := by
      intro i; simp
    have hse : ∀ i, sqrtNaN ((-(r.hessian)⁻¹) i i) = some (Real.sqrt ((-(r.hessian)⁻¹) i i)) := by
      intro i
      simp only [sqrtNaN, not_lt.mpr (hv i).le, if_false]
    have htv : ∀ i, divNaN (x i) (some (Real.sqrt ((-(r.hessian)⁻¹) i i))) =
        some (x i / Real.sqrt ((-(r.hessian)⁻¹) i i)) := by
      intro i
      rw [divNaN, if_neg (Real.sqrt_pos.2 (hv i)).ne']
    have hA : ∀ i, asymptoticCovariance r.hessian r.fisher i i = ((r.hessian)⁻¹ * r.fisher * (r.hessian)⁻¹) i i := by
      intro i
      rw [asymptoticCovariance, Matrix.mul_assoc]
    refine ⟨e7, hu, ?_, e8, ?_, hv, ⟨_, e2, e5, fun i => ⟨fun hf => ((q3 i).1 hf).1, fun hf => ?_⟩⟩,
      ⟨_, e3, fun i => ⟨fun hf => ((q3 i).1 hf).2.1, fun hf => ?_⟩⟩,
      ⟨_, e4, fun i => ⟨fun hf => ((q3 i).1 hf).2.2.1, fun hf => ?_⟩⟩,
      ⟨_, _, _, f1, f2, f3, fun i => ⟨fun hf => ((q3 i).1 hf).2.2.2, fun hf hV => ?_, fun hV => ?_⟩⟩,
      ⟨_, _, _, _, _, _, e2, e3, e4, f1, f2, f3, e29⟩⟩
    · rw [e9, hcov]
    · rw [e10, q2, Matrix.mul_assoc]; rfl
    · rw [((q3 i).2 hf).1]
      exact (congrArg sqrtNaN (hneg i)).trans (hse i)
    · rw [((q3 i).2 hf).2.1]
      exact (congrArg (fun v => divNaN (x i) (sqrtNaN v)) (hneg i)).trans (by rw [hse, htv])
    · rw [((q3 i).2 hf).2.2.1]
      exact (congrArg (fun v => twoSidedP sf (divNaN (x i) (sqrtNaN v))) (hneg i)).trans
        (by rw [hse, htv]; rfl)
    · obtain ⟨-, -, -, g1, g2, g3⟩ := (q3 i).2 hf
      have k1 : sqrtNaN (asymptoticCovariance r.hessian r.fisher i i) = some (Real.sqrt
          (((r.hessian)⁻¹ * r.fisher * (r.hessian)⁻¹) i i)) := by
        rw [hA]
        simp only [sqrtNaN, not_lt.mpr hV.le, if_false]
      have k2 : divNaN (x i) (sqrtNaN (asymptoticCovariance r.hessian r.fisher i i)) =
          some (x i / Real.sqrt (((r.hessian)⁻¹ * r.fisher * (r.hessian)⁻¹) i i)) := by
        rw [k1]
        simp [divNaN, (Real.sqrt_pos.2 hV).ne']
      exact ⟨g1.trans k1, g2.trans k2, g3.trans (congrArg (twoSidedP sf) k2)⟩
    · by_cases hf : FixedLabel names r.constrained i
      · exact ((q3 i).1 hf).2.2.2
      · obtain ⟨-, -, -, g1, g2, g3⟩ := (q3 i).2 hf
        have k1 : sqrtNaN (asymptoticCovariance r.hessian r.fisher i i) = none := by
          rw [hA]
          simp only [sqrtNaN, hV, if_true]
        have k2 : divNaN (x i) (sqrtNaN (asymptoticCovariance r.hessian r.fisher i i)) = none := by
          rw [k1]; rfl
        exact ⟨g1.trans k1, g2.trans k2, g3.trans (congrArg (twoSidedP sf) k2)⟩

/-- The residuals and chi-squares of a fit of the model `m` with probabilities `p` of the rows. -/
theorem residual_lists {m : ChoiceModel ℝ} {ids : List ℝ}
    (hs : (m.data.colList m.args.obsIdCol).Pairwise (· ≤ ·)) (hids : AltsOf m.data m.args.obsIdCol ids)
    (p : Fin m.data.numRows → ℝ) :
    (List.ofFn (fitResiduals (m.data.val m.args.choiceCol) p)).map (fun v => [v]) =
        List.ofFn (fun q => [(tableOf m ids).y q - p q]) ∧
    (List.ofFn (individualChiSquares (fitResiduals (m.data.val m.args.choiceCol) p) p
        (m.data.rowsToObs m.args.obsIdCol))).map (fun v => [v]) =
      (ids.map fun i => [∑ q ∈ (tableOf m ids).rows i, ((tableOf m ids).y q - p q) ^ 2 / p q]) ∧
    (ids.map fun i => ∑ q ∈ (tableOf m ids).rows i, ((tableOf m ids).y q - p q) ^ 2 / p q).sum =
      ∑ q, ((tableOf m ids).y q - p q) ^ 2 / p q := by
  refine ⟨?_, ?_, sum_of_groups _ _ _ hids⟩
  · simp only [List.map_ofFn]
    rfl
  · rw [← ofFn_ids hs hids, List.map_ofFn]
    refine congrArg List.ofFn (funext fun o => ?_)
    simp only [Function.comp_apply, individualChiSquares, obs_sum, fitResiduals]
    rfl

/-- A list with one entry per observation of the table. -/
theorem obs_list {m : ChoiceModel ℝ} {ids : List ℝ}
    (hs : (m.data.colList m.args.obsIdCol).Pairwise (· ≤ ·)) (hids : AltsOf m.data m.args.obsIdCol ids)
    {c : Fin (originalOrderUniqueIds (m.data.colList m.args.obsIdCol)).length → ℝ} {p : Fin m.data.numRows → ℝ}
    (hc : ∀ o, c o = ∑ q with m.data.val m.args.obsIdCol q =
      (originalOrderUniqueIds (m.data.colList m.args.obsIdCol)).get o, m.data.val m.args.choiceCol q * p q) :
    (List.ofFn c).map (fun v => [v]) =
      ids.map fun i => [∑ q ∈ (tableOf m ids).rows i, (tableOf m ids).y q * p q] := by
  rw [← ofFn_ids hs hids, List.map_ofFn]
  refine congrArg List.ofFn (funext fun o => ?_)
  simp only [Function.comp_apply, hc]
  rfl

/-- Everything a fit with the estimation object `obj` stores, when it stores without an exception. -/
theorem run_reports {solver : Solver} {m : ChoiceModel ℝ} {obj : LogitObject} {ids : List ℝ} {ridge : Option ℝ}
    {U : (Fin obj.n → ℝ) → Fin m.data.numRows → ℝ} {Dom : (Fin obj.n → ℝ) → Prop}
    (hd : Describes m obj ids ridge U Dom)
    (hs : (m.data.colList m.args.obsIdCol).Pairwise (· ≤ ·)) (hids : AltsOf m.data m.args.obsIdCol ids)
    (hsol : FaithfulSolver solver) {con : Option (List ℤ)} {x₀ : List ℝ} {r : FitResults}
    (hr : runEstimation solver m obj con x₀ = .ok r) {sf : ℝ → ℝ} {s t : FitAttrs}
    (hst : storeFitResults sf r s = (t, none)) :
    FittedAt m (allParams r) r ∧
    ∃ (x : Fin obj.n → ℝ) (labels : Fin obj.n → String) (ps : Option (List (Fin obj.n))) (rep : OptReport obj.n),
      constrainedArg obj.n con = .ok ps ∧
      solver obj.n (obj.est ps).negLLAndGrad (fun k => x₀.getD k 0) (obj.est ps).negHessian = .ok rep ∧ rep.x = x ∧
      allParams r = List.ofFn x ∧
      List.ofFn labels = allNames r (addMixingNames s.names) ∧
      (x₀.length = obj.n → OptimiserReport solver x₀ con ((tableOf m ids).logLik ridge U)
        (fun θ => Dom θ ∧ ∀ r, |U θ r| < 700) (fun _ _ => 0) x ((obj.est ps).hessian x) t) ∧
      FitReport (tableOf m ids) ridge U labels x t ∧
      (MinimisingSolver solver → ∀ y, (tableOf m ids).logLik ridge U y ≤ (tableOf m ids).logLik ridge U x) ∧
      (Dom x → (∀ r, |U x r| < 700) → DerivativeReport (tableOf m ids) ridge U labels x (obj.fisher x) t) ∧
      (0 ≤ ridge.getD 0 →
        InferenceReport sf labels con x ((obj.est ps).hessian x) (obj.fisher x) t) := by
  unfold runEstimation runEstimationWith at hr
  simp only [bind, Except.bind] at hr
  split at hr
  · cases hr
  rename_i ps hps
  split at hr
  · cases hr
  rename_i rep hrep
  obtain ⟨h, hh, hpr⟩ := hd.probs rep.x
  obtain rfl : h = U rep.x := funext hh
  rw [hpr] at hr
  simp only [Except.ok.injEq] at hr
  have hL : ∀ θ, (obj.est ps).logLik θ = (tableOf m ids).logLik ridge U θ := hd.logLik ps
  have hfin : -1 * rep.fun_ = (tableOf m ids).logLik ridge U rep.x := by
    rw [hsol _ _ _ _ _ hrep, constrained_gradient_fst, hL]
    ring
  have hnull : (obj.est ps).logLik (fun _ => 0) = (tableOf m ids).equalShares := by rw [hL, hd.null]
  have hall : allParams r = List.ofFn rep.x := by subst hr; exact hd.split rep.x
  have hfit : FittedAt m (List.ofFn rep.x) r := by subst hr; exact ⟨rfl, _, _, hpr, rfl, rfl⟩
  refine ⟨hall ▸ hfit, ?_⟩
  obtain ⟨r1, r2, r3⟩ := residual_lists hs hids (longProbs (m.data.rowsToObs m.args.obsIdCol) (U rep.x))
  have r4 := obs_list hs hids (c := chosenProbs (m.data.rowsToObs m.args.obsIdCol)
      (Matrix.of fun r o => m.data.rowsToObs m.args.obsIdCol r o * m.data.val m.args.choiceCol r) (U rep.x))
    (p := longProbs (m.data.rowsToObs m.args.obsIdCol) (U rep.x)) fun o => by
      rw [chosen_sum]
      simp only [frame_longProbs]
  have hP : longProbs (m.data.rowsToObs m.args.obsIdCol) (U rep.x) = (tableOf m ids).prob (U rep.x) := by
    funext q
    rw [frame_longProbs]
    rfl
  subst hr
  obtain ⟨labels, hlab, h1, h2, h3, h5, h6, -, -, -, -, -, h4⟩ := store_reports (D := tableOf m ids)
    (p := longProbs (m.data.rowsToObs m.args.obsIdCol) (U rep.x)) hst rep.x (hd.split rep.x) rfl
    (by simp [estimate, rhoBarSquared]) (by
      show ((List.ofFn _).map _).length = ids.length
      rw [r4, List.length_map])
  refine ⟨rep.x, labels, ps, rep, hps, hrep, rfl, hall, hlab, fun hx => optimiser_report hps (hd.constrained ps) hL
    (fun θ hθ => by simpa using hd.gradient ps θ hθ.1 hθ.2) hx hrep h5 h6, ⟨?_, ?_⟩, fun hmin y => ?_, fun hx hb => ?_, fun hρ => ?_⟩
  · have h1' : FitStatistics (tableOf m ids) (-1 * rep.fun_) ((obj.est ps).logLik fun _ => 0) labels rep.x t := h1
    rwa [hfin, hnull] at h1'
  · exact hP ▸ h2 List.map_ofFn r4 r1 r2 r3
  · have := hmin _ _ _ _ _ hrep y
    rw [constrained_gradient_fst, constrained_gradient_fst, hL, hL] at this
    linarith
  · exact ⟨⟨_, h3, hd.gradient ps _ hx hb⟩, hd.fisher _ hx hb⟩
  · exact h4 ((hd.hessian ps rep.x).nsd (by linarith)) (constrainedArg_ok hps)

/-! ## The multinomial logit estimation object -/

theorem design_dot {df : Frame ℝ} {cols : List (Fin df.numRows → ℝ)} {altCol : String}
    {ds : List (ColDesc ℝ)} (hc : cols = ds.map fun d => d.value df altCol) (θ : Fin cols.length → ℝ)
    (r : Fin df.numRows) :
    ((Matrix.of fun r (k : Fin cols.length) => cols[k] r) *ᵥ θ) r = rowIndex df altCol ds (List.ofFn θ) r := by
  subst hc
  rw [rowIndex]
  simp only [mulVec, dotProduct, Matrix.of_apply]
  rw [← List.sum_ofFn]
  congr 1
  apply List.ext_getElem
  · simp
  · intro i h1 h2; simp

theorem partials_of_objective {P : Type} [DecidableEq P] {e : Estimator P} {LL : (P → ℝ) → ℝ} {x : P → ℝ}
    (h : ObjectiveFor e LL x) (hcon : e.constrainedPos = none) : HasPartials LL (e.gradient x) x := by
  intro i
  have := (h.free i (by simp [hcon])).neg
  have e2 : (e.negLLAndGrad x).2 i = -e.gradient x i := by
    unfold Estimator.negLLAndGrad
    rw [hcon]
    simp
  rw [e2, neg_neg] at this
  exact this.congr_of_eventuallyEq (Filter.Eventually.of_forall fun t => by simp)

/-- What an estimation object computes, in terms of observations and their chosen rows. -/
structure Works {R O P : Type} [Fintype R] [DecidableEq R] [Fintype O] [DecidableEq O] [Fintype P] [DecidableEq P]
    (f : R → O) (c : O → R) (ridge : Option ℝ) (est : Option (List P) → Estimator P)
    (fisher : (P → ℝ) → Matrix P P ℝ) (W : (P → ℝ) → R → ℝ) (Dom : (P → ℝ) → Prop) : Prop where
  value : ∀ con θ, (est con).logLik θ = penalisedLogLik c none ridge (fun θ => clippedLogit f (W θ)) θ
  zero : ∃ b, ∀ r, W (fun _ => 0) r = b
  gradient : ∀ con θ, Dom θ → (∀ r, |W θ r| < 700) →
    HasPartials (penalisedLogLik c none ridge fun θ => clippedLogit f (W θ)) ((est con).gradient θ) θ
  fisher : ∀ θ, Dom θ → (∀ r, |W θ r| < 700) → OuterProductInfo (fisher θ)
    (fun o θ => Real.log (clippedLogit f (W θ) (c o))) θ ridge (fun _ => 1)
  hessian : ∀ con θ, SymmBelow (2 * ridge.getD 0) ((est con).hessian θ)
  covariance : ∀ con θ, Dom θ →
    CovarianceHessian ((est con).hessian θ) W θ f (clippedLogit f (W θ)) ridge (fun _ => 1)
  constrained : ∀ con, (est con).constrainedPos = con

private lemma cov_rows {df : Frame ℝ} {obsCol : String} {O : Type} [Fintype O] [DecidableEq O]
    {f : Fin df.numRows → O} {uid : O → ℝ} (hiff : ∀ r o, f r = o ↔ df.val obsCol r = uid o)
    (p x y : Fin df.numRows → ℝ) :
    ∑ o, obsCov f p x y o =
      ∑ r, p r * x r * (y r - ∑ s with df.val obsCol s = df.val obsCol r, p s * y s) := by
  have e : ∀ r, Finset.univ.filter (fun s => df.val obsCol s = df.val obsCol r) = rowsOf f (f r) := by
    intro r
    rw [card_same hiff]
    ext s
    simp [mem_rowsOf]
  simp only [e]
  rw [← Finset.sum_fiberwise Finset.univ f]
  refine Finset.sum_congr rfl fun o _ => ?_
  have e2 : ∀ r ∈ Finset.univ.filter (fun r => f r = o),
      p r * x r * (y r - ∑ s ∈ rowsOf f (f r), p s * y s) =
        p r * (x r * y r) - p r * x r * ∑ s ∈ rowsOf f o, p s * y s := by
    intro r hr
    rw [(Finset.mem_filter.1 hr).2]
    ring
  rw [Finset.sum_congr rfl e2, Finset.sum_sub_distrib, ← Finset.sum_mul, obsCov]
  have e3 : Finset.univ.filter (fun r => f r = o) = rowsOf f o := by ext r; simp [mem_rowsOf]
  rw [e3]

/-- It is enough to know the estimation object in terms of observations and their chosen rows. -/
theorem describes_of {m : ChoiceModel ℝ} {obj : LogitObject} (ids : List ℝ) {ridge : Option ℝ}
    {U : (Fin obj.n → ℝ) → Fin m.data.numRows → ℝ} {Dom : (Fin obj.n → ℝ) → Prop}
    {O : Type} [Fintype O] [DecidableEq O]
    {f : Fin m.data.numRows → O} {c : O → Fin m.data.numRows} {uid : O → ℝ}
    (hc : OneChoice f (m.data.val m.args.choiceCol) c)
    (hiff : ∀ r o, f r = o ↔ m.data.val m.args.obsIdCol r = uid o)
    (hw : Works f c ridge obj.est obj.fisher U Dom)
    (hprobs : ∀ θ, fitProbs m (List.ofFn θ) =
      .ok (chosenProbs (m.data.rowsToObs m.args.obsIdCol)
        (Matrix.of fun r o => m.data.rowsToObs m.args.obsIdCol r o * m.data.val m.args.choiceCol r) (U θ),
        longProbs (m.data.rowsToObs m.args.obsIdCol) (U θ)))
    (hsplit : ∀ θ : Fin obj.n → ℝ,
      let sp := splitParamVec m.cls (fitDims m) (List.ofFn θ)
      sp.nests.getD [] ++ (sp.shapes.getD [] ++ (sp.intercepts.getD [] ++ sp.index)) = List.ofFn θ) :
    Describes m obj ids ridge U Dom := by
  obtain ⟨hval, hzero, hgrad, hfish, hhess, hcov, hpos⟩ := hw
  have hL := table_logLik ids hc hiff ridge U
  have hL' : ∀ con, (tableOf m ids).logLik ridge U = (obj.est con).logLik := fun con =>
    funext fun θ => (hL θ).trans (hval con θ).symm
  refine ⟨fun con θ => (congrFun (hL' con) θ).symm, ?_, ?_, ?_, hhess, ?_, fun θ => ⟨U θ, fun _ => rfl, hprobs θ⟩,
    hsplit, hpos⟩
  · obtain ⟨b, hb⟩ := hzero
    refine (hL _).trans ?_
    rw [penalised_null hc.mem hb]
    simp only [equalSharesLogLik, Option.getD_none, one_mul]
    refine Eq.trans ?_ (sum_choice hc fun r =>
      Real.log (1 / ((rowsOf (m.data.val m.args.obsIdCol) (m.data.val m.args.obsIdCol r)).card : ℝ))).symm
    refine Finset.sum_congr rfl fun o _ => ?_
    have := card_same hiff (c o)
    rw [hc.mem] at this
    rw [this]
  · intro con θ hx hb
    rw [show (tableOf m ids).logLik ridge U = penalisedLogLik c none ridge fun θ => clippedLogit f (U θ)
      from funext hL]
    exact hgrad con θ hx hb
  · intro θ hx hb
    obtain ⟨S, hS, hF⟩ := hfish θ hx hb
    refine ⟨fun r => S (f r), fun r hr => ?_, fun i j => ?_⟩
    · have hrc : r = c (f r) := by
        by_contra hne
        have h0 : m.data.val m.args.choiceCol r = 0 := hc.zero r hne
        have h1 : m.data.val m.args.choiceCol r = 1 := hr
        rw [h0] at h1
        exact zero_ne_one h1
      have := hS (f r)
      dsimp only at this
      rw [← hrc] at this
      simp only [clipped_same hiff] at this
      exact this
    · rw [hF i j]
      refine congrArg (· - _) ?_
      refine Eq.trans ?_ (sum_choice hc fun r => S (f r) i * S (f r) j).symm
      simp [hc.mem]
  · intro con θ hx
    obtain ⟨J, hJ, hH⟩ := hcov con θ hx
    refine ⟨J, hJ, fun i j => (hH i j).trans ?_⟩
    congr 2
    simp only [one_mul, LongData.prob, LongData.rows, tableOf, clipped_same hiff]
    exact cov_rows hiff _ _ _

private lemma mnl_covariance {R O A K ι : Type} [Fintype R] [DecidableEq R] [Fintype O] [DecidableEq O]
    [Fintype K] [DecidableEq K] {d : FitData R O A K ι} {f : R → O} {c : O → R} {ridge : Option ℝ}
    (hM : Indicates d.rowsToObs f) (hc : ∀ o, f (c o) = o) (con : Option (List K)) (θ : K → ℝ) :
    CovarianceHessian ((mnlEstimator d ridge none con).hessian θ) (fun θ => d.design *ᵥ θ) θ f
      (clippedLogit f (d.design *ᵥ θ)) ridge (fun _ => 1) := by
  have := hessian_covariance_none (S := Empty) (I := Empty) hM hc
    (obsWeights_est (f := f) (weights := none) fun w e => by cases e) (X := d.design)
    (ids := d.altIDs) (rta := d.rowsToAlts) (T := mnlTransform) (β := θ)
    (clippedLogit f (d.design *ᵥ θ)) ridge (fun r v v' h => h) (mnl_derivs_correct _ _ _)
  simp only [estWeights_getD, Option.getD_none] at this
  refine Eq.subst (motive := fun H => CovarianceHessian H _ _ _ _ _ _) ?_ this
  simp only [mnlEstimator, estimatorNone, modelProbs, mnlTransform]
  rw [show longProbs d.rowsToObs _ = _ from funext (longProbs_eq_clippedLogit hM _)]

/-- What the multinomial logit estimation object of a built model computes. -/
theorem mnl_describes {env : Env ℝ} {ty : String} {df : Frame ℝ} {a : ModelArgs ℝ} {m : ChoiceModel ℝ}
    (hm : createChoiceModel env ty df a = .ok m) (hcls : m.cls = .mnl) {s : List (String × SpecVal ℝ)}
    (hspec : m.args.specification = encodeAll s) {alts : List ℝ} (ids : List ℝ)
    (ha : AltsOf m.data m.args.altIdCol alts)
    {chosen : ℝ → Fin m.data.numRows} (hc : OneChoicePerObs m.data m.args.obsIdCol m.args.choiceCol chosen)
    (hrows : 0 < m.data.numRows) (ridge : Option ℝ) :
    m.design.length = (specColumns alts s).length ∧
    ∃ U : (Fin m.design.length → ℝ) → Fin m.data.numRows → ℝ,
      U = (fun θ r => rowIndex m.data m.args.altIdCol (specColumns alts s) (List.ofFn θ) r) ∧
      Describes m (mnlObject m hrows ridge) ids ridge U (fun _ => True) ∧
      ∀ con θ, (∀ r, |U θ r| < 700) → HasSecondPartials ((tableOf m ids).logLik ridge U)
        ((mnlEstimator (modelFitData m) ridge none con).hessian θ) θ := by
  have hdes := (built_own hm).1.design
  rw [hspec] at hdes
  have hcols : m.design = (specColumns alts s).map fun d => d.value m.data m.args.altIdCol :=
    design_entries ha hdes
  have hlen : m.design.length = (specColumns alts s).length := by rw [hcols, List.length_map]
  obtain ⟨f, c, hM, hone, hiff⟩ := table_choice hc
  obtain ⟨d, hd⟩ : ∃ d, d = modelFitData m := ⟨_, rfl⟩
  have hM' : Indicates d.rowsToObs f := hd ▸ hM
  have hone' : OneChoice f d.choice c := hd ▸ hone
  have hX : (fun θ => d.design *ᵥ θ) = fun θ r =>
      rowIndex m.data m.args.altIdCol (specColumns alts s) (List.ofFn θ) r := by
    subst hd
    exact funext fun θ => funext fun r => design_dot hcols θ r
  have hval : ∀ con θ, (mnlEstimator d ridge none con).logLik θ =
      penalisedLogLik c none ridge (fun θ => clippedLogit f (d.design *ᵥ θ)) θ := by
    intro con θ
    have := mnl_objective_value (d := d) (ridge := ridge) (weights := none) hM' hone' con θ
    rw [constrained_gradient_fst, neg_inj] at this
    exact this
  have hw : ObsWeights f (none : Option (Fin m.data.numRows → ℝ)) := fun w e => by cases e
  have hw0 : NonnegWeights (none : Option (Fin m.data.numRows → ℝ)) := fun w e => by cases e
  refine ⟨hlen, fun θ => d.design *ᵥ θ, hX, ?_⟩
  rw [← hd]
  refine ⟨describes_of ids hone hiff ⟨?_, ?_, ?_, ?_, ?_, ?_, fun _ => rfl⟩ ?_ ?_, ?_⟩
  · intro con θ
    refine Eq.trans ?_ (hval con θ)
    rw [hd]
    rfl
  · exact ⟨0, fun r => by simp [mulVec, dotProduct]⟩
  · intro con θ _ hb
    have := partials_of_objective (mnl_objective (d := d) (ridge := ridge) hM' hone' hw none θ hb) rfl
    rw [hd] at this ⊢
    exact this
  · intro θ _ hb
    have : Nonempty (Fin m.data.numRows) := ⟨⟨0, hrows⟩⟩
    have := mnl_fisher_info (weights := estWeights none) hM' hone' (obsWeights_est hw)
      (nonnegWeights_est hw0) d.design d.altIDs d.rowsToAlts θ
      ridge hb
    simp only [modelProbs, mnlTransform, longProbs_eq_clippedLogit hM', estWeights_getD, Option.getD_none] at this
    rw [hd] at this ⊢
    exact this
  · intro con θ
    have := (hessian_ridge_bound (S := Empty) (I := Empty) hM' (weights := estWeights none) (obsWeights_est hw)
      (nonnegWeights_est hw0) ridge mnlDerivs d.design θ d.altIDs d.rowsToAlts mnlTransform none none).2.2.2
    rw [hd] at this
    exact this
  · intro con θ _
    have := mnl_covariance (ridge := ridge) hM' hone'.mem con θ
    rw [hd] at this ⊢
    exact this
  · intro θ
    have hv : designDot m.design (List.ofFn θ) = .ok (d.design *ᵥ θ) := by
      rw [congrFun hX θ]
      conv_lhs => rw [hcols]
      exact designDot_ok (by rw [List.length_ofFn]; exact hlen)
    simp only [fitProbs, hcls, splitParamVec, hv, predictTransform, bind, Except.bind]
  · intro θ
    simp [hcls, splitParamVec]
  · intro con θ hb i j
    have h := (mnl_objective_hessian (d := d) (ridge := ridge) hM' hone' hw con θ hb i j).neg
    have e : (mnlEstimator d ridge none con).negHessian θ i j = -(mnlEstimator d ridge none con).hessian θ i j := by
      simp [Estimator.negHessian]
    rw [e, neg_neg] at h
    refine h.congr_of_eventuallyEq (Filter.Eventually.of_forall fun t => ?_)
    simp only [Pi.neg_apply, deriv.fun_neg, neg_neg]
    congr 1
    exact funext fun u => table_logLik ids hone hiff ridge _ _

/-! ## C109: what `fit_mle` reports -/

theorem mnl_run {solver : Solver} {m : ChoiceModel ℝ} {a : FitArgs} {r : FitResults}
    (h : mnlFit solver m a = .ok r) :
    ∃ (x : List ℝ) (hrows : 0 < m.data.numRows), a.init.vals = some x ∧ x.length = m.design.length ∧
      (m.data.colList m.args.obsIdCol).Pairwise (· ≤ ·) ∧
      runEstimation solver m (mnlObject m hrows a.ridge) a.constrained x = .ok r := by
  unfold mnlFit at h
  simp only [bind, Except.bind, rawInitVals, initPlain] at h
  split at h
  · cases h
  rename_i x hx
  split at h
  · cases h
  rename_i u hu
  split at h
  · cases h
  rename_i u' hu'
  split at h
  · rename_i hrows
    refine ⟨x, hrows, ?_, ?_, ?_, h⟩
    · split_ifs at hx
      split at hx
      · rename_i y hy
        cases hx
        exact hy
      · cases hx
    · unfold checkInitLength at hu'
      split_ifs at hu' with hl
      simpa [assumedParamDimensions, fitDims] using hl
    · unfold estimationChecks at hu
      simp only [bind, Except.bind] at hu
      split at hu
      · cases hu
      split at hu
      · cases hu
      rename_i u1 hu1
      exact ensureContiguity_ok.1 hu1
  · cases h

theorem built_mixing {env : Env ℝ} {ty : String} {df : Frame ℝ} {a : ModelArgs ℝ} {m : ChoiceModel ℝ}
    (h : createChoiceModel env ty df a = .ok m) (hm : m.cls ≠ .mixed) : m.args.mixingVars = none := by
  unfold createChoiceModel at h
  split at h
  · cases h
  rename_i cls _
  rw [classInit_iff] at h
  obtain ⟨-, h⟩ := h
  obtain ⟨-, h2⟩ := baseInit_ok.1 h
  obtain ⟨-, -, d, hd, -, rfl⟩ := initBuild_iff.1 h2
  cases cls <;> simp_all [argsFor]

theorem outcome_ok {j : Bool} {e : Except Err FitResults} {r : FitResults}
    (h : fitOutcome j e = .results r) : e = .ok r := by
  cases e with
  | error _ => cases h
  | ok r' =>
    cases j
    · simp only [fitOutcome, Bool.false_eq_true, if_false, FitOutcome.results.injEq] at h
      rw [h]
    · simp [fitOutcome] at h

/-- **C109** (multinomial logit). Build a multinomial logit model on a table in which every observation chose one
row, fit it any number of times, and let one fit store its results without an exception, after which no other does.
Whatever the optimiser is - as long as it reports the value of its objective where it stops - the attributes of the
model then say what they should about the table: there is one parameter per described column, under the model's
names; if the optimiser minimises, the parameters maximise the log-likelihood; log-likelihood, null log-likelihood, rho-squares, AIC, BIC, counts, fitted probabilities, residuals and
chi-squares are those of the parameters reported; unless a utility is clipped, gradient, Hessian and Fisher
information hold the derivatives of this log-likelihood; and with a ridge penalty that is not negative, all
variances are positive, and standard errors, t- and p-values are those of the Hessian, except for fixed
parameters. Predicting the table gives the fitted probabilities.  The optimiser was started at the vector given, with
minus the log-likelihood as its objective and its derivatives, which are zero for the parameters held fixed; and
where it stopped, whether it succeeded and its message are what is stored. -/
theorem mnl_fit_report {env : Env ℝ} {ty : String} {df : Frame ℝ} {a : ModelArgs ℝ} {m : ChoiceModel ℝ}
    (hm : createChoiceModel env ty df a = .ok m) (hcls : m.cls = .mnl) {s : List (String × SpecVal ℝ)}
    (hspec : m.args.specification = encodeAll s) {alts ids : List ℝ} (ha : AltsOf m.data m.args.altIdCol alts)
    (hids : AltsOf m.data m.args.obsIdCol ids) {chosen : ℝ → Fin m.data.numRows}
    (hc : OneChoicePerObs m.data m.args.obsIdCol m.args.choiceCol chosen)
    {solver : Solver} (hsol : FaithfulSolver solver) (label : PyVal ℝ → String) (sf : ℝ → ℝ)
    (before after : List FitCall) (args : FitArgs) (hpoint : args.justPoint = false)
    (hst : (fitCall sf (mnlFitCall solver m args) (fitCalls sf before (freshFit label m))).2 = none)
    (hafter : ∀ d ∈ after, ∀ r, d.outcome ≠ .results r) :
    let t := (fitCalls sf (before ++ mnlFitCall solver m args :: after) (freshFit label m)).attrs
    ∃ (n : ℕ) (x : Fin n → ℝ) (labels : Fin n → String) (H F : Matrix (Fin n) (Fin n) ℝ),
      let U := fun (θ : Fin n → ℝ) r => rowIndex m.data m.args.altIdCol (specColumns alts s) (List.ofFn θ) r
      n = (specColumns alts s).length ∧ List.ofFn labels = m.indVarNames.map label ∧
      (∃ x₀, args.init.vals = some x₀ ∧ OptimiserReport solver x₀ args.constrained
        ((tableOf m ids).logLik args.ridge U) (fun θ => ∀ r, |U θ r| < 700) (fun _ _ => 0) x H t) ∧
      FitReport (tableOf m ids) args.ridge U labels x t ∧
      (MinimisingSolver solver →
        ∀ y, (tableOf m ids).logLik args.ridge U y ≤ (tableOf m ids).logLik args.ridge U x) ∧
      ((∀ r, |U x r| < 700) → DerivativeReport (tableOf m ids) args.ridge U labels x F t ∧
        HasSecondPartials ((tableOf m ids).logLik args.ridge U) H x) ∧
      (0 ≤ args.ridge.getD 0 → InferenceReport sf labels args.constrained x H F t) ∧
      Reproduces env m t df := by
  intro t
  obtain ⟨r, hr⟩ : ∃ r, (mnlFitCall solver m args).outcome = .results r := by
    unfold mnlFitCall at hst ⊢
    rw [hpoint] at hst ⊢
    cases hf : mnlFit solver m args with
    | error e => simp [hf, fitOutcome, fitCall] at hst
    | ok r => exact ⟨r, by simp [fitOutcome]⟩
  obtain ⟨x₀, hrows, hx₀, hx₁, hasc, hrun⟩ := mnl_run (outcome_ok hr)
  obtain ⟨hlen, U, hU, hd, hH⟩ := mnl_describes hm hcls hspec ids ha hc hrows args.ridge
  obtain ⟨ht, ht2⟩ := fits_latest sf before after _ r (freshFit label m) hr hst hafter
  obtain ⟨hfit, x, labels, ps, rep, -, -, rfl, -, hl, h5, h1, h4, h2, h3⟩ :=
    run_reports hd hasc hids hsol hrun (sf := sf) (s := (freshFit label m).attrs) (t := t)
      (Prod.ext ht.symm ht2)
  subst hU
  refine ⟨m.design.length, rep.x, labels, _, _, hlen, ?_, ⟨x₀, hx₀, optimiser_report_mono (h5 hx₁) fun θ h => ⟨trivial, h⟩⟩, h1, h4,
    fun hb => ⟨h2 trivial hb, hH ps rep.x hb⟩, h3,
    predict_reproduces_fit hm (by rw [hcls]; decide) sf before after _ r _ _ hr hfit hst hafter⟩
  · have hmix : m.args.mixingVars = none := built_mixing hm (by rw [hcls]; decide)
    have hsp : r.split = ⟨none, none, none, r.split.index⟩ := by
      rw [hfit.split, hcls]; rfl
    refine hl.trans ?_
    rw [allNames, hsp]
    simp [optionalLabels, addMixingNames, freshFit, modelNames, hmix]

/-- A function whose derivative along some coordinates is zero everywhere does not depend on them. -/
private lemma flat_coordinates {n : ℕ} {F : (Fin n → ℝ) → ℝ} (S : Finset (Fin n))
    (hS : ∀ i ∈ S, ∀ θ, HasDerivAt (fun s => F (Function.update θ i s)) 0 (θ i)) (x y : Fin n → ℝ) :
    F (fun i => if i ∈ S then x i else y i) = F y := by
  classical
  induction S using Finset.induction_on with
  | empty => simp
  | insert a S ha ih =>
    rw [← ih fun i hi => hS i (Finset.mem_insert_of_mem hi)]
    set z : Fin n → ℝ := fun i => if i ∈ S then x i else y i with hz
    have e : (fun i => if i ∈ insert a S then x i else y i) = Function.update z a (x a) := by
      funext i
      by_cases hi : i = a
      · subst hi; simp
      · simp [hz, hi, Finset.mem_insert]
    have hd : ∀ s, HasDerivAt (fun s => F (Function.update z a s)) 0 s := by
      intro s
      have := hS a (Finset.mem_insert_self a S) (Function.update z a s)
      simpa using this
    have hc := is_const_of_deriv_eq_zero (f := fun s => F (Function.update z a s))
      (fun s => (hd s).differentiableAt) (fun s => (hd s).deriv) (x a) (z a)
    simp only [Function.update_eq_self] at hc
    rw [e, hc]

/-- **C109** (fixed parameters). With an optimiser that leaves coordinates of zero derivative alone and minimises over
the others, a fit leaves the parameters held fixed at their starting values, and the log-likelihood reported is at
least that of every vector with the starting values at these positions and at those where the log-likelihood seems not
to change: so it is a maximum over the other parameters where the derivatives are right everywhere. -/
theorem fixed_parameters {solver : Solver} (hsol : CoordinateSolver solver) {n : ℕ} {x₀ : List ℝ}
    {con : Option (List ℤ)} {LL : (Fin n → ℝ) → ℝ} {Good : (Fin n → ℝ) → Prop} {E : (Fin n → ℝ) → Fin n → ℝ}
    {x : Fin n → ℝ} {H : Matrix (Fin n) (Fin n) ℝ} {t : FitAttrs}
    (h : OptimiserReport solver x₀ con LL Good E x H t) :
    (∀ i, (∃ z ∈ con.getD [], PosIs n z i) → x₀[(i : ℕ)]? = some (x i)) ∧
    (∀ y : Fin n → ℝ, (∀ i, ((∃ z ∈ con.getD [], PosIs n z i) ∨
        ∀ θ, Good θ → HasDerivAt (fun s => LL (Function.update θ i s)) (-E θ i) (θ i)) → x₀[(i : ℕ)]? = some (y i)) →
      LL y ≤ LL x) ∧
    ((∀ θ, Good θ) → (∀ θ, E θ = fun _ => 0) →
      ∀ y : Fin n → ℝ, (∀ i, (∃ z ∈ con.getD [], PosIs n z i) → x₀[(i : ℕ)]? = some (y i)) → LL y ≤ LL x) := by
  obtain ⟨hl, f, hh, rep, hrun, rfl, -, -, -, hf, hfix, hfree⟩ := h
  have hget : ∀ i : Fin n, x₀[(i : ℕ)]? = some (x₀.getD i 0) := by
    intro i
    rw [List.getD_eq_getElem?_getD, List.getElem?_eq_getElem (by rw [hl]; exact i.2)]
    rfl
  have hcase : ∀ i, (∀ θ, (f θ).2 i = 0) → (∃ z ∈ con.getD [], PosIs n z i) ∨
      ∀ θ, Good θ → HasDerivAt (fun s => LL (Function.update θ i s)) (-E θ i) (θ i) := by
    intro i hi
    by_cases hz : ∃ z ∈ con.getD [], PosIs n z i
    · exact Or.inl hz
    · refine Or.inr fun θ hθ => ?_
      have := (hfree θ hθ i fun z h1 h2 => hz ⟨z, h1, h2⟩).neg
      rw [hi θ, zero_add] at this
      exact this.congr_of_eventuallyEq (Filter.Eventually.of_forall fun s => by simp)
  have hmax : ∀ y : Fin n → ℝ, (∀ i, (∀ θ, (f θ).2 i = 0) → y i = x₀.getD i 0) → LL y ≤ LL rep.x := by
    intro y hy
    have := hsol.minimises _ _ _ _ _ hrun y hy
    rw [hf, hf] at this
    linarith
  refine ⟨fun i hi => ?_, fun y hy => hmax y fun i hi => ?_, fun hG hE y hy => ?_⟩
  · rw [hget, hsol.stays _ _ _ _ _ hrun i fun θ => hfix θ i hi]
  · have := hy i (hcase i hi)
    rw [hget, Option.some.injEq] at this
    exact this.symm
  · classical
    set S : Finset (Fin n) := {i | (∀ θ, (f θ).2 i = 0) ∧ ¬ ∃ z ∈ con.getD [], PosIs n z i} with hSdef
    have e := flat_coordinates (F := LL) S (fun i hi θ => by
      obtain ⟨h1, h2⟩ := (Finset.mem_filter.1 hi).2
      rcases hcase i h1 with h3 | h3
      · exact absurd h3 h2
      · have := h3 θ (hG θ)
        rw [hE] at this
        simpa using this) (fun i => x₀.getD i 0) y
    rw [← e]
    refine hmax _ fun i hi => ?_
    by_cases hz : ∃ z ∈ con.getD [], PosIs n z i
    · have h1 := hy i hz
      rw [hget, Option.some.injEq] at h1
      beta_reduce
      split_ifs
      · rfl
      · exact h1.symm
    · have : i ∈ S := Finset.mem_filter.2 ⟨Finset.mem_univ i, hi, hz⟩
      simp [this]

open Classical in
/-- An optimiser that returns the minimum over the coordinates whose derivative is not zero everywhere, if there is one,
and raises otherwise. -/
def exCoordinate : Solver := fun _ f x₀ _ =>
  if h : ∃ x, (∀ i, (∀ θ, (f θ).2 i = 0) → x i = x₀ i) ∧
      ∀ y, (∀ i, (∀ θ, (f θ).2 i = 0) → y i = x₀ i) → (f x).1 ≤ (f y).1 then
    .ok ⟨⟨h.choose, (f h.choose).1⟩, true, "done"⟩
  else .error .valueError

theorem exCoordinate_solves : CoordinateSolver exCoordinate := by
  constructor
  · intro n f x₀ h r hr i hi
    unfold exCoordinate at hr
    split_ifs at hr with hx
    cases hr
    exact hx.choose_spec.1 i hi
  · intro n f x₀ h r hr y hy
    unfold exCoordinate at hr
    split_ifs at hr with hx
    cases hr
    exact hx.choose_spec.2 y hy

/-- Non-vacuity of `fixed_parameters`: minimising `s² + (t - 1)²` with the derivative along `t` set to zero, from
`(4, 5)`, ends at `(0, 5)`. -/
example (h : (Fin 2 → ℝ) → Matrix (Fin 2) (Fin 2) ℝ) :
    ∃ r, exCoordinate 2 (fun θ => (θ 0 ^ 2 + (θ 1 - 1) ^ 2, ![2 * θ 0, 0])) ![4, 5] h = .ok r ∧ r.x 0 = 0 ∧ r.x 1 = 5 := by
  have hx : ∃ x : Fin 2 → ℝ, (∀ i, (∀ θ : Fin 2 → ℝ, (![2 * θ 0, 0] : Fin 2 → ℝ) i = 0) → x i = (![4, 5] : Fin 2 → ℝ) i) ∧
      ∀ y : Fin 2 → ℝ, (∀ i, (∀ θ : Fin 2 → ℝ, (![2 * θ 0, 0] : Fin 2 → ℝ) i = 0) → y i = (![4, 5] : Fin 2 → ℝ) i) →
        x 0 ^ 2 + (x 1 - 1) ^ 2 ≤ y 0 ^ 2 + (y 1 - 1) ^ 2 := by
    refine ⟨![0, 5], fun i hi => ?_, fun y hy => ?_⟩
    · fin_cases i
      · have := hi ![1, 1]
        simp at this
      · rfl
    · have := hy 1 fun θ => by simp
      simp only [this, Matrix.cons_val_zero, Matrix.cons_val_one]
      nlinarith [sq_nonneg (y 0)]
  refine ⟨_, dif_pos hx, ?_⟩
  have h5 : hx.choose 1 = 5 := hx.choose_spec.1 1 fun θ => by simp
  refine ⟨?_, h5⟩
  have h0 := hx.choose_spec.2 ![0, 5] fun i hi => by
    fin_cases i
    · have := hi ![1, 1]
      simp at this
    · rfl
  simp only [h5, Matrix.cons_val_zero, Matrix.cons_val_one] at h0
  have : hx.choose 0 ^ 2 ≤ 0 := by linarith
  exact pow_eq_zero_iff two_ne_zero |>.1 (le_antisymm this (sq_nonneg _))

/-- **C109** (the penalty on record). A call of `fit_mle` that is given no keyword for other models leaves its ridge
penalty in the attribute of the model, whatever becomes of the fit. -/
theorem mnl_fit_sets_ridge (solver : Solver) (m : ChoiceModel ℝ) (sf : ℝ → ℝ) (s : FitState) (args : FitArgs)
    (_ : args.init.shapes = none ∧ args.init.intercepts = none ∧ args.init.coefs = none) :
    (fitCall sf (mnlFitCall solver m args) s).1.ridgeParam = args.ridge := by
  unfold fitCall
  split <;> rfl

/-! ## When a fit succeeds -/

theorem constrainedArg_exists {n : ℕ} {con : Option (List ℤ)} :
    (∃ ps, constrainedArg n con = .ok ps) ↔ ∀ z ∈ con.getD [], ∃ i : Fin n, PosIs n z i := by
  cases con with
  | none => simp [constrainedArg]
  | some l =>
    have key : ∀ l : List ℤ, (∃ ps, l.mapM (arrayPos n) = .ok ps) ↔ ∀ z ∈ l, ∃ i : Fin n, PosIs n z i := by
      intro l
      induction l with
      | nil => simp [pure, Except.pure]
      | cons z l ih =>
        simp only [List.mapM_cons, bind, Except.bind, List.forall_mem_cons, ← ih]
        simp only [← arrayPos_ok]
        cases arrayPos n z with
        | error e => simp
        | ok i =>
          cases l.mapM (arrayPos n) with
          | error e => simp
          | ok ps => simp [pure, Except.pure]
    simp only [constrainedArg, bind, Except.bind, Option.getD_some, ← key]
    cases l.mapM (arrayPos n) with
    | error e => simp
    | ok ps => simp [pure, Except.pure]

theorem choices_nonneg {df : Frame ℝ} {obsCol choiceCol : String} {chosen : ℝ → Fin df.numRows}
    (hc : OneChoicePerObs df obsCol choiceCol chosen) (r : Fin df.numRows) : 0 ≤ df.val choiceCol r := by
  by_cases h : r = chosen (df.val obsCol r)
  · rw [h, hc.one]
    exact zero_le_one
  · rw [hc.zero r h]

/-- The optimiser returns from its run on a multinomial logit. -/
theorem mnl_returns {solver : Solver} {m : ChoiceModel ℝ} (hrows : 0 < m.data.numRows) {ridge : Option ℝ}
    (hsol : Returns solver ridge) (hc : ∀ r, 0 ≤ m.data.val m.args.choiceCol r)
    (ps : Option (List (Fin (mnlObject m hrows ridge).n))) (x₀ : Fin (mnlObject m hrows ridge).n → ℝ) :
    ∃ r, solver _ ((mnlObject m hrows ridge).est ps).negLLAndGrad x₀ ((mnlObject m hrows ridge).est ps).negHessian =
      .ok r := by
  rcases hsol with h | ⟨h0, h⟩
  · exact h _ _ _ _
  · obtain ⟨f, hf, -⟩ := m.data.rowsToObs_indicates m.args.obsIdCol
    have hM : Indicates (modelFitData m).rowsToObs f := hf
    obtain ⟨x, -, hx⟩ := mnl_attained hM hc (weights := none) (fun w e => by cases e) h0 ps [] x₀
    refine h _ _ _ _ ⟨x, fun y => ?_⟩
    have h1 := constrained_gradient_fst ((mnlObject m hrows ridge).est ps) x
    have h2 := constrained_gradient_fst ((mnlObject m hrows ridge).est ps) y
    exact h1.trans_le ((neg_le_neg (hx y (by simp))).trans h2.ge)

/-- **C109** (which fits get results). With an optimiser that always returns - or one that returns whenever its
objective has a minimum, and a ridge penalty that is not negative -, a fit of a multinomial logit model gets
to its results exactly when it was given a vector of starting values with one value per described column, and none
of the keywords for other models; the ids of the table, which has rows, ascend; and every position to be held fixed
exists. -/
theorem mnl_fit_accepts {env : Env ℝ} {ty : String} {df : Frame ℝ} {a : ModelArgs ℝ} {m : ChoiceModel ℝ}
    (hm : createChoiceModel env ty df a = .ok m) (hcls : m.cls = .mnl) {s : List (String × SpecVal ℝ)}
    (hspec : m.args.specification = encodeAll s) {alts : List ℝ} (ha : AltsOf m.data m.args.altIdCol alts)
    {chosen : ℝ → Fin m.data.numRows} (hc : OneChoicePerObs m.data m.args.obsIdCol m.args.choiceCol chosen)
    {solver : Solver} (args : FitArgs) (hsol : Returns solver args.ridge) :
    (∃ r, mnlFit solver m args = .ok r) ↔
      (∃ x : List ℝ, args.init = ⟨some x, none, none, none⟩ ∧ x.length = (specColumns alts s).length) ∧
      (m.data.colList m.args.obsIdCol).Pairwise (· ≤ ·) ∧ 0 < m.data.numRows ∧
      ∀ z ∈ args.constrained.getD [], ∃ i, PosIs (specColumns alts s).length z i := by
  have hlen : m.design.length = (specColumns alts s).length := by
    have hdes := (built_own hm).1.design
    rw [hspec] at hdes
    rw [show m.design = _ from design_entries ha hdes, List.length_map, specColumns]
  rw [← hlen]
  constructor
  · rintro ⟨r, hr⟩
    obtain ⟨x, hrows, hx, hxl, hasc, hrun⟩ := mnl_run hr
    refine ⟨⟨x, ?_, hxl⟩, hasc, hrows, ?_⟩
    · unfold mnlFit at hr
      simp only [bind, Except.bind, rawInitVals, initPlain] at hr
      split at hr
      · cases hr
      rename_i hx'
      split_ifs at hx' with hk
      revert hx hk
      generalize args.init = i
      obtain ⟨v, sh, ic, co⟩ := i
      rintro rfl hk
      cases sh <;> cases ic <;> cases co <;> simp_all
    · unfold runEstimation runEstimationWith at hrun
      simp only [bind, Except.bind] at hrun
      split at hrun
      · cases hrun
      rename_i ps hps
      exact constrainedArg_exists.1 ⟨ps, hps⟩
  · rintro ⟨⟨x, hx, hxl⟩, hasc, hrows, hpos⟩
    obtain ⟨-, U, -, hd, -⟩ := mnl_describes hm hcls hspec [] ha hc hrows args.ridge
    obtain ⟨ps, hps⟩ := constrainedArg_exists.2 hpos
    have h1 : rawInitVals .mnl (fitDims m) args.init = .ok x := by
      rw [hx]; simp [rawInitVals, initPlain]
    have h2 : estimationChecks (args.ridge.map PyVal.num) (m.data.colList m.args.obsIdCol) .none = .ok () := by
      unfold estimationChecks
      have : ensureContiguity (m.data.colList m.args.obsIdCol) = .ok () := ensureContiguity_ok.2 hasc
      cases args.ridge <;> simp [checkRidge, this, checkWeights, bind, Except.bind]
    have h3 : checkInitLength .mnl (fitDims m) false x = .ok () := by
      simp [checkInitLength, assumedParamDimensions, fitDims, hxl]
    unfold mnlFit
    simp only [bind, Except.bind, h1, h2, h3, hrows, dif_pos]
    unfold runEstimation runEstimationWith
    obtain ⟨rep, hrep⟩ := mnl_returns hrows hsol (choices_nonneg hc) ps fun k => x.getD k 0
    obtain ⟨h, -, hpr⟩ := hd.probs rep.x
    have hps' : constrainedArg (mnlObject m hrows args.ridge).n args.constrained = .ok ps := hps
    simp only [bind, Except.bind, hps', hrep, hpr]
    exact ⟨_, rfl⟩

/-- **C109** (which fits are stored). A fit of a multinomial logit model that got to its results stores them without an
exception exactly when its Hessian is invertible - always, with a positive ridge penalty. -/
theorem mnl_fit_stores {env : Env ℝ} {ty : String} {df : Frame ℝ} {a : ModelArgs ℝ} {m : ChoiceModel ℝ}
    (hm : createChoiceModel env ty df a = .ok m) (hcls : m.cls = .mnl) {s : List (String × SpecVal ℝ)}
    (hspec : m.args.specification = encodeAll s) (hkeys : (s.map Prod.fst).Nodup)
    (hnm : ∀ ns, m.args.names = some ns → (ns.map Prod.fst).Nodup)
    {alts : List ℝ} (ha : AltsOf m.data m.args.altIdCol alts)
    {chosen : ℝ → Fin m.data.numRows} (hc : OneChoicePerObs m.data m.args.obsIdCol m.args.choiceCol chosen)
    {solver : Solver} (label : PyVal ℝ → String) (sf : ℝ → ℝ) (before : List FitCall) (args : FitArgs)
    (hpoint : args.justPoint = false) {r : FitResults} (hr : mnlFit solver m args = .ok r) :
    ((fitCall sf (mnlFitCall solver m args) (fitCalls sf before (freshFit label m))).2 = none ↔
      IsUnit r.hessian.det) ∧
    (0 < args.ridge.getD 0 → IsUnit r.hessian.det) := by
  obtain ⟨x₀, hrows, -, -, -, hrun⟩ := mnl_run hr
  obtain ⟨-, U, -, hd, -⟩ := mnl_describes hm hcls hspec [] ha hc hrows args.ridge
  have hdes := (built_own hm).1.design
  rw [hspec] at hdes
  have hnames : m.indVarNames.length = m.design.length :=
    one_name_per_column (by simpa [encodeAll, Function.comp_def] using hkeys) hnm hdes
  have hmix : m.args.mixingVars = none := built_mixing hm (by rw [hcls]; decide)
  unfold runEstimation runEstimationWith at hrun
  simp only [bind, Except.bind] at hrun
  split at hrun
  · cases hrun
  rename_i ps hps
  split at hrun
  · cases hrun
  rename_i rep hrep
  obtain ⟨h, -, hpr⟩ := hd.probs rep.x
  rw [hpr] at hrun
  simp only [Except.ok.injEq] at hrun
  have hpos := constrainedArg_exists.1 ⟨ps, hps⟩
  refine ⟨?_, fun hρ => ?_⟩
  · have hout : (mnlFitCall solver m args).outcome = .results r := by
      simp [mnlFitCall, fitOutcome, hr, hpoint]
    simp only [fitCall, hout]
    rw [store_fit_iff]
    refine ⟨fun h => h.regular, fun hu => ?_⟩
    refine storable_congr (fitCalls_names sf before (freshFit label m)).symm ?_
    subst hrun
    constructor
    · intro p g h1; simp [splitParamVec, hcls] at h1
    · intro p g h1; simp [splitParamVec, hcls] at h1
    · intro p g h1; simp [splitParamVec, hcls] at h1
    · simp [addMixingNames, freshFit, modelNames, hmix, splitParamVec, hcls, hnames]
      rfl
    · simp [splitParamVec, hcls]
    · exact hu
    · intro cs e pos hmem
      have e' : args.constrained = some cs := e
      rw [e'] at hpos
      obtain ⟨i, hi⟩ := hpos pos hmem
      have := i.2
      unfold PosIs at hi
      show -(((mnlObject m hrows args.ridge).n : ℕ) : ℤ) ≤ pos ∧ pos < ((mnlObject m hrows args.ridge).n : ℕ)
      omega
  · subst hrun
    exact (hd.hessian ps rep.x).regular (by linarith)

/-! ## A concrete fit -/

/-- An optimiser that stays at the starting values. -/
def exStaying : Solver := fun _ f x _ => .ok ⟨⟨x, (f x).1⟩, true, "done"⟩

open Classical in
/-- An optimiser that finds a global minimum if there is one, and raises otherwise. -/
def exGlobal : Solver := fun _ f _ _ =>
  if h : ∃ x, ∀ y, (f x).1 ≤ (f y).1 then .ok ⟨⟨h.choose, (f h.choose).1⟩, true, "done"⟩ else .error .valueError

theorem exStaying_faithful : FaithfulSolver exStaying := by
  intro n f x h r hr
  cases hr
  rfl

theorem exGlobal_minimising : FaithfulSolver exGlobal ∧ MinimisingSolver exGlobal := by
  constructor <;> intro n f x h r hr <;> unfold exGlobal at hr <;> split_ifs at hr with he <;> cases hr
  · rfl
  · exact he.choose_spec

private theorem exChosen_ids : AltsOf exChosen "alt" [1, 2] ∧ AltsOf exChosen "obs" [1] := by
  refine ⟨⟨by simp, fun x => ⟨?_, ?_⟩⟩, ⟨by simp, fun x => ⟨?_, ?_⟩⟩⟩
  · intro hx
    rcases List.mem_cons.1 hx with rfl | hx
    · exact ⟨(0 : Fin 2), rfl⟩
    · rw [List.mem_singleton.1 hx]; exact ⟨(1 : Fin 2), rfl⟩
  · rintro ⟨r, rfl⟩
    change Fin 2 at r
    fin_cases r <;> simp [exChosen]
  · intro hx
    rw [List.mem_singleton.1 hx]
    exact ⟨(0 : Fin 2), rfl⟩
  · rintro ⟨r, rfl⟩
    change Fin 2 at r
    fin_cases r <;> simp [exChosen]

/-- Non-vacuity of `mnl_fit_accepts`, `mnl_fit_stores` and `mnl_fit_report`: on a table of one observation, a fit with
ridge penalty 1 that stays at the starting value 3, after one that stored results and one that failed. -/
example (env : Env ℝ) (henv : env.badCol = fun _ => false) (label : PyVal ℝ → String) (sf : ℝ → ℝ) :
    ∃ m, createChoiceModel env "MNL" exChosen exLogitArgs = .ok m ∧
      let before := [mnlFitCall exStaying m ⟨⟨some [7], none, none, none⟩, some 2, some [-1], false⟩,
        mnlFitCall exStaying m ⟨⟨some [7, 8], none, none, none⟩, none, none, false⟩]
      let c := mnlFitCall exStaying m ⟨⟨some [3], none, none, none⟩, some 1, some [0], false⟩
      (fitCall sf c (fitCalls sf before (freshFit label m))).2 = none ∧
      ∃ (n : ℕ) (x : Fin n → ℝ) (labels : _) (H F : _),
        FitReport (tableOf m [1]) (some 1)
          (fun θ r => rowIndex m.data m.args.altIdCol (specColumns [1, 2] [("x", .allSame)]) (List.ofFn θ) r) labels x
          (fitCalls sf (before ++ c :: []) (freshFit label m)).attrs ∧
        InferenceReport sf labels (some [0]) x H F (fitCalls sf (before ++ c :: []) (freshFit label m)).attrs := by
  obtain ⟨d, hd, hlen⟩ : ∃ d, createDesignMatrix env.fmt env.fmtList exChosen
      (encodeAll [("x", SpecVal.allSame)]) "alt" none = .ok d ∧ d.1.length = 1 :=
    ⟨_, design_success env.fmt env.fmtList exChosen [("x", .allSame)] "alt" [1, 2] exChosen_ids.1
      (by simp [exChosen]) (by simp [exChosen]) (by simp [SpecVal.ValidFor])
      (by simp [SpecVal.columns]), by simp [SpecVal.columns]⟩
  have hk : modelTypeToClass.lookup "MNL" = some .mnl := by decide
  have hint : addIntercept (encodeAll [("x", (SpecVal.allSame : SpecVal ℝ))]) exChosen = exChosen := by
    simp [addIntercept, encodeAll]
  have hargs : argsFor .mnl exLogitArgs = exLogitArgs := rfl
  obtain ⟨m, hmd⟩ : ∃ m : ChoiceModel ℝ, m = ⟨.mnl, displayNameOf (classOf .mnl), exChosen, d.1, d.2, exLogitArgs, none⟩ :=
    ⟨_, rfl⟩
  have hm : createChoiceModel env "MNL" exChosen exLogitArgs = .ok m := by
    rw [hmd]
    simp only [createChoiceModel, hk]
    rw [classInit_iff, hargs]
    refine ⟨by simp [exLogitArgs], baseInit_ok.2 ⟨initChecks_ok.2 ?_, ?_⟩⟩
    · simp [exLogitArgs, exChosen, checkNamesAndRef, checkNestSpecArg]
    · have : addIntercept exLogitArgs.specification exChosen = exChosen := hint
      rw [this, initBuild_iff]
      refine ⟨?_, ?_, d, hd, ?_, rfl⟩
      · simp [exLogitArgs, exChosen, encodeAll]
      · simp [henv]
      · simp [exLogitArgs]
  refine ⟨m, hm, ?_⟩
  intro before c
  have hcls : m.cls = .mnl := by rw [hmd]
  have hspec : m.args.specification = encodeAll [("x", .allSame)] := by rw [hmd]; rfl
  have ha : AltsOf m.data m.args.altIdCol [1, 2] := by rw [hmd]; exact exChosen_ids.1
  have hi : AltsOf m.data m.args.obsIdCol [1] := by rw [hmd]; exact exChosen_ids.2
  obtain ⟨chosen, hc⟩ : ∃ chosen, OneChoicePerObs m.data m.args.obsIdCol m.args.choiceCol chosen := by
    rw [hmd]
    refine ⟨fun _ => (1 : Fin 2), ?_, ?_, ?_⟩ <;> intro r <;> change Fin 2 at r <;> fin_cases r <;>
      simp [exChosen, exLogitArgs]
  obtain ⟨r, hr⟩ : ∃ r, mnlFit exStaying m ⟨⟨some [3], none, none, none⟩, some 1, some [0], false⟩ = .ok r := by
    refine (mnl_fit_accepts hm hcls hspec ha hc _ (.inl fun n f x h => ⟨_, rfl⟩)).2 ⟨⟨[3], rfl, ?_⟩, ?_, ?_, ?_⟩
    · simp [specColumns, SpecVal.columns]
    · rw [hmd]; simp [exChosen, exLogitArgs, Frame.colList]
    · rw [hmd]; simp [exChosen]
    · intro z hz
      obtain rfl : z = 0 := by simpa using hz
      exact ⟨⟨0, by simp [specColumns, SpecVal.columns]⟩, Or.inl rfl⟩
  have hst : (fitCall sf c (fitCalls sf before (freshFit label m))).2 = none := by
    obtain ⟨h1, h2⟩ := mnl_fit_stores hm hcls hspec (by simp) (by intro ns h; rw [hmd] at h; cases h) ha hc label sf
      before _ rfl hr
    exact h1.2 (h2 (by simp))
  refine ⟨hst, ?_⟩
  obtain ⟨n, x, labels, H, F, -, -, -, h1, -, -, h2, -⟩ := mnl_fit_report hm hcls hspec ha hi hc exStaying_faithful label sf
    before [] _ rfl hst (by simp)
  exact ⟨n, x, labels, H, F, h1, h2 (by simp)⟩

end

end Pylogit
