import Verif.Spec.LikelihoodRatio
import Verif.Props.PenalisedFits
import Verif.Props.SeparationFits
import Verif.Props.WholeFitMixed
import Verif.Props.WholeFitNested
import Verif.Props.WholeFitTypes
import Verif.Props.Session

/-!
# C125: more general models fit at least as well
-/

namespace Pylogit

open Spec

namespace LR

/-! ## Padding coefficients -/

theorem pad {α : Type} {l l' : List α} (h : l.Sublist l') : ∀ β : List ℝ, β.length = l.length →
    ∃ β' : List ℝ, β'.length = l'.length ∧ (β'.map (· ^ 2)).sum = (β.map (· ^ 2)).sum ∧
      ∀ f : α → ℝ, ((l'.zip β').map fun p => f p.1 * p.2).sum = ((l.zip β).map fun p => f p.1 * p.2).sum := by
  induction h with
  | slnil =>
    intro β hβ
    exact ⟨β, hβ, rfl, fun f => rfl⟩
  | @cons l₁ l₂ a _ ih =>
    intro β hβ
    obtain ⟨β', h1, h2, h3⟩ := ih β hβ
    exact ⟨0 :: β', by simp [h1], by simp [h2], fun f => by simp [h3]⟩
  | @cons_cons l₁ l₂ a _ ih =>
    intro β hβ
    cases β with
    | nil => simp at hβ
    | cons b β =>
      obtain ⟨β', h1, h2, h3⟩ := ih β (by simpa using hβ)
      exact ⟨b :: β', by simp [h1], by simp [h2], fun f => by simp [h3]⟩

theorem columns_sublist (alts : List ℝ) {s s' : List (String × SpecVal ℝ)} (h : s.Sublist s') :
    (specColumns alts s).Sublist (specColumns alts s') := by
  unfold specColumns
  induction h with
  | slnil => exact List.Sublist.refl _
  | cons a _ ih => exact ih.trans (List.sublist_append_right _ _)
  | cons_cons a _ ih => exact (List.Sublist.refl _).append ih

/-! ## The caller's table -/

/-- What a model that was built says about the caller's table and arguments. -/
theorem built {env : Env ℝ} {ty : String} {df : Frame ℝ} {a : ModelArgs ℝ} {m : ChoiceModel ℝ}
    (hm : createChoiceModel env ty df a = .ok m) :
    m.data = addIntercept a.specification df ∧ m.args.specification = a.specification ∧
    m.args.altIdCol = a.altIdCol ∧ m.args.obsIdCol = a.obsIdCol ∧ m.args.choiceCol = a.choiceCol ∧
    a.altIdCol ∈ df.columns ∧ a.obsIdCol ∈ df.columns ∧ a.choiceCol ∈ df.columns ∧
    ∀ c ∈ a.specification.map Prod.fst, c ∈ (addIntercept a.specification df).columns := by
  have hsp := created_spec hm
  have hd : m.data = addIntercept a.specification df := by rw [← hsp]; exact (built_own hm).2.1.symm
  have hargs : m.args.altIdCol = a.altIdCol ∧ m.args.obsIdCol = a.obsIdCol ∧ m.args.choiceCol = a.choiceCol ∧
      a.altIdCol ∈ df.columns ∧ a.obsIdCol ∈ df.columns ∧ a.choiceCol ∈ df.columns := by
    have hm' := hm
    unfold createChoiceModel at hm'
    split at hm'
    · cases hm'
    · obtain ⟨h1, -, h2, h3, h4, -⟩ := classInit_ok hm'
      have h5 := (initChecks_ok.1 (baseInit_ok.1 h1).1).1
      exact ⟨h2, h3, h4, h2 ▸ h5 _ (by simp), h3 ▸ h5 _ (by simp), h4 ▸ h5 _ (by simp)⟩
  refine ⟨hd, hsp, hargs.1, hargs.2.1, hargs.2.2.1, hargs.2.2.2.1, hargs.2.2.2.2.1, hargs.2.2.2.2.2, ?_⟩
  have hdes := (built_own hm).1.design
  have := ((createDesignMatrix_ok_iff rfl).1 hdes).2.1
  rw [hsp, hd] at this
  exact this

theorem alts_of {df : Frame ℝ} {spec : List (String × PyVal ℝ)} {c : String} {alts : List ℝ} (hc : c ∈ df.columns)
    (h : AltsOf df c alts) : AltsOf (addIntercept spec df) c alts := by
  refine ⟨h.ascending, fun x => ?_⟩
  rw [h.mem, ← mem_colList, ← mem_colList, addIntercept_colList _ _ _ hc]

theorem ne_intercept {df : Frame ℝ} {c : String} (hc : c ∈ df.columns) (h : "intercept" ∉ df.columns) :
    c ≠ "intercept" := fun e => h (e ▸ hc)

theorem choice_of {df : Frame ℝ} {spec : List (String × PyVal ℝ)} {obs choice : String}
    (ho : obs ∈ df.columns) (hy : choice ∈ df.columns) {chosen : ℝ → Fin df.numRows}
    (h : OneChoicePerObs df obs choice chosen) :
    ∃ chosen', OneChoicePerObs (addIntercept spec df) obs choice chosen' := by
  by_cases hi : "intercept" ∈ spec.map Prod.fst ∧ "intercept" ∉ df.columns
  · rw [addIntercept_eq, if_pos hi]
    refine ⟨chosen, ?_, ?_, ?_⟩
    · intro r; simpa [withIntercept, ne_intercept ho hi.2] using h.mem r
    · intro r; simpa [withIntercept, ne_intercept ho hi.2, ne_intercept hy hi.2] using h.one r
    · intro r hr
      have := h.zero r (by simpa [withIntercept, ne_intercept ho hi.2] using hr)
      simpa [withIntercept, ne_intercept hy hi.2] using this
  · rw [addIntercept_eq, if_neg hi]
    exact ⟨chosen, h⟩

/-- The variable of a described column. -/
def var : ColDesc ℝ → String
  | .same v => v
  | .alt v _ => v
  | .group v _ => v

theorem var_mem {alts : List ℝ} {s : List (String × SpecVal ℝ)} {c : ColDesc ℝ} (h : c ∈ specColumns alts s) :
    var c ∈ (encodeAll s).map Prod.fst := by
  unfold specColumns at h
  obtain ⟨kv, hkv, hc⟩ := List.mem_flatMap.1 h
  have : var c = kv.1 := by
    obtain ⟨k, v⟩ := kv
    cases v with
    | allSame => simp [SpecVal.columns] at hc; simp [hc, var]
    | allDiff =>
      simp only [SpecVal.columns, List.mem_map] at hc
      obtain ⟨x, -, rfl⟩ := hc
      rfl
    | groups l =>
      simp only [SpecVal.columns, List.mem_map] at hc
      obtain ⟨x, -, rfl⟩ := hc
      cases x <;> rfl
  rw [this]
  simp only [encodeAll, List.map_map, List.mem_map]
  exact ⟨kv, hkv, rfl⟩

/-- Sums over the model's table are sums over the caller's. -/
theorem sum_of {df : Frame ℝ} {s : List (String × SpecVal ℝ)} {alt obs choice : String} (halt : alt ∈ df.columns)
    (ho : obs ∈ df.columns) (hy : choice ∈ df.columns) (alts : List ℝ)
    (hcol : ∀ c ∈ (encodeAll s).map Prod.fst, c ∈ (addIntercept (encodeAll s) df).columns) (F : ℝ → ℝ → ℝ)
    (β : List ℝ) :
    ∑ r, (addIntercept (encodeAll s) df).val choice r * Real.log (clippedLogit ((addIntercept (encodeAll s) df).val obs)
        (fun r => F ((addIntercept (encodeAll s) df).val alt r)
          (rowIndex (addIntercept (encodeAll s) df) alt (specColumns alts s) β r)) r) =
      ∑ r, df.val choice r * Real.log (clippedLogit (df.val obs)
        (fun r => F (df.val alt r) (callersIndex df alt (specColumns alts s) β r)) r) := by
  have key : ∀ (D : Frame ℝ) (e : D.numRows = df.numRows)
      (_ : ∀ c ∈ [alt, obs, choice], ∀ r, D.val c r = df.val c (Fin.cast e r))
      (_ : ∀ c ∈ specColumns alts s, ∀ r, D.val (var c) r =
        if var c = "intercept" ∧ "intercept" ∉ df.columns then 1 else df.val (var c) (Fin.cast e r)),
      ∑ r, D.val choice r * Real.log (clippedLogit (D.val obs)
        (fun r => F (D.val alt r) (rowIndex D alt (specColumns alts s) β r)) r) =
      ∑ r, df.val choice r * Real.log (clippedLogit (df.val obs)
        (fun r => F (df.val alt r) (callersIndex df alt (specColumns alts s) β r)) r) := by
    intro D e h1 h2
    obtain ⟨dc, dn, dv⟩ := D
    dsimp only at e
    subst e
    simp only [Fin.cast_eq_self] at h1 h2
    have ea : dv alt = df.val alt := funext fun r => h1 alt (by simp) r
    have eo : dv obs = df.val obs := funext fun r => h1 obs (by simp) r
    have ey : dv choice = df.val choice := funext fun r => h1 choice (by simp) r
    have ei : ∀ r, rowIndex ⟨dc, df.numRows, dv⟩ alt (specColumns alts s) β r =
        callersIndex df alt (specColumns alts s) β r := by
      intro r
      unfold callersIndex rowIndex
      refine congrArg List.sum (List.map_congr_left fun p hp => ?_)
      have hv := h2 p.1 (List.of_mem_zip hp).1 r
      have ha : (if alt = "intercept" ∧ "intercept" ∉ df.columns then (1 : ℝ) else df.val alt r) = df.val alt r := by
        rw [if_neg]
        rintro ⟨e, h⟩
        exact h (e ▸ halt)
      obtain ⟨c, b⟩ := p
      cases c <;> simp only [ColDesc.value, var, ha, ea] at hv ⊢ <;> rw [hv] <;> rfl
    simp only [ea, eo, ey, ei]
  generalize hD : addIntercept (encodeAll s) df = D at hcol ⊢
  rw [addIntercept_eq] at hD
  split_ifs at hD with hi
  · subst hD
    refine key (withIntercept df) rfl ?_ ?_
    · intro c hc r
      have : c ∈ df.columns := by
        simp only [List.mem_cons, List.not_mem_nil, or_false] at hc
        rcases hc with rfl | rfl | rfl <;> assumption
      simp [withIntercept, ne_intercept this hi.2]
      rfl
    · intro c hc r
      by_cases e : var c = "intercept"
      · simp [withIntercept, e, hi.2]
      · simp [withIntercept, e]
        rfl
  · subst hD
    refine key df rfl (fun c hc r => rfl) fun c hc r => ?_
    rw [if_neg]
    · rfl
    · rintro ⟨e, h⟩
      exact h (e ▸ hcol _ (var_mem hc))

/-! ## What a fit says, in terms of the caller's table -/

/-- The utilities of the rows of the caller's table, as documented. -/
def Doc (cls : ModelType) (alts : List ℝ) (iref sref : PyRef) (df : Frame ℝ) (alt : String) (cols : List (ColDesc ℝ))
    {n : ℕ} (U : (Fin n → ℝ) → Fin df.numRows → ℝ) : Prop :=
  ∀ θ : Fin n → ℝ, ∃ (p : ParamArrays) (q : AltParams), HoldsFor cls alts iref sref p q ∧
    (p.shapes = none ↔ cls = .mnl ∨ cls = .cloglog) ∧
    (p.intercepts = none ↔ cls = .mnl ∨ iref = .none ∨ alts.length = 1) ∧
    p.index.length = cols.length ∧ List.ofFn θ = p.shapes.getD [] ++ (p.intercepts.getD [] ++ p.index) ∧
    ∀ r, U θ r = rowUtility cls alts q (df.val alt r) (callersIndex df alt cols p.index r)

/-- The log-likelihood of the choices in the caller's table. -/
noncomputable def ll (df : Frame ℝ) (obs choice : String) (u : Fin df.numRows → ℝ) : ℝ :=
  ∑ r, df.val choice r * Real.log (clippedLogit (df.val obs) u r)

theorem ofFn_sq {n : ℕ} (θ : Fin n → ℝ) : ∑ k, θ k ^ 2 = ((List.ofFn θ).map (· ^ 2)).sum := by
  rw [List.map_ofFn, List.sum_ofFn]
  rfl

theorem eq_shares_df {df : Frame ℝ} {spec : List (String × PyVal ℝ)} {obs choice : String} (ho : obs ∈ df.columns)
    (hy : choice ∈ df.columns) (ids : List ℝ) :
    (⟨addIntercept spec df, obs, choice, ids⟩ : LongData).equalShares = (⟨df, obs, choice, ids⟩ : LongData).equalShares := by
  by_cases hi : "intercept" ∈ spec.map Prod.fst ∧ "intercept" ∉ df.columns
  · rw [addIntercept_eq, if_pos hi]
    simp only [LongData.equalShares, LongData.y, LongData.rows, withIntercept, ne_intercept ho hi.2,
      ne_intercept hy hi.2, if_false]
    rfl
  · rw [addIntercept_eq, if_neg hi]

theorem equalShares_nonpos {df : Frame ℝ} {obs choice : String} {chosen : ℝ → Fin df.numRows}
    (hc : OneChoicePerObs df obs choice chosen) (ids : List ℝ) :
    (⟨df, obs, choice, ids⟩ : LongData).equalShares ≤ 0 := by
  unfold LongData.equalShares
  refine Finset.sum_nonpos fun r _ => mul_nonpos_of_nonneg_of_nonpos (choices_nonneg hc r) ?_
  refine Real.log_nonpos (by positivity) ?_
  have : 0 < ((⟨df, obs, choice, ids⟩ : LongData).rows (df.val obs r)).card :=
    Finset.card_pos.2 ⟨r, by simp [LongData.rows]⟩
  rw [div_le_one (by exact_mod_cast this)]
  exact_mod_cast this

/-- A fit of a model of logit type. -/
theorem extract {env : Env ℝ} {ty : String} {df : Frame ℝ} {a : ModelArgs ℝ} {m : ChoiceModel ℝ}
    (hm : createChoiceModel env ty df a = .ok m) {s : List (String × SpecVal ℝ)}
    (hspec : a.specification = encodeAll s) {alts : List ℝ} (ha : AltsOf df a.altIdCol alts)
    (h2 : m.cls = .asym → 2 ≤ alts.length) {chosen : ℝ → Fin df.numRows}
    (hc : OneChoicePerObs df a.obsIdCol a.choiceCol chosen) {solver : Solver} (hsol : FaithfulSolver solver)
    {label : PyVal ℝ → String} {sf : ℝ → ℝ} {args : FitArgs} (hpoint : args.justPoint = false) {t : FitAttrs}
    (ht : HoldsResultsOf label sf m (logitFitCall solver m args) t) :
    (m.cls ≠ .nested ∧ m.cls ≠ .mixed) ∧ ∃ (n : ℕ) (x : Fin n → ℝ) (U : (Fin n → ℝ) → Fin df.numRows → ℝ) (L : ℝ),
      Doc m.cls alts m.args.interceptRefPos m.args.shapeRefPos df a.altIdCol (specColumns alts s) U ∧
      L = ll df a.obsIdCol a.choiceCol (U x) - args.ridge.getD 0 * ∑ k, x k ^ 2 ∧
      t.logLik = some L ∧ t.llf = some L ∧
      t.rhoSq = some (1 - L / (⟨df, a.obsIdCol, a.choiceCol, []⟩ : LongData).equalShares) ∧
      t.params.map Series.values = some (List.ofFn x) ∧
      (MinimisingSolver solver → ∀ y, ll df a.obsIdCol a.choiceCol (U y) - args.ridge.getD 0 * ∑ k, y k ^ 2 ≤ L) := by
  obtain ⟨before, after, hst, hafter, rfl⟩ := ht
  have hcls : m.cls ≠ .nested ∧ m.cls ≠ .mixed := by
    obtain ⟨r, hr⟩ : ∃ r, (logitFitCall solver m args).outcome = .results r := by
      unfold logitFitCall at hst ⊢
      rw [hpoint] at hst ⊢
      cases hf : logitFit solver m args with
      | error e => simp [hf, fitOutcome, fitCall] at hst
      | ok r => exact ⟨r, by simp [fitOutcome]⟩
    obtain ⟨_, _, _, hobj, _⟩ := logit_run (outcome_ok hr)
    exact object_class hobj
  obtain ⟨hd, hsp, e1, e2, e3, c1, c2, c3, hcol⟩ := built hm
  have ha' : AltsOf m.data m.args.altIdCol alts := by rw [hd, e1]; exact alts_of c1 ha
  obtain ⟨ids, hids⟩ : ∃ ids, AltsOf m.data m.args.obsIdCol ids :=
    ⟨npUnique (m.data.colList m.args.obsIdCol), npUnique_strict _, fun x => by rw [mem_npUnique, mem_colList]⟩
  obtain ⟨chosen', hc'⟩ : ∃ chosen', OneChoicePerObs m.data m.args.obsIdCol m.args.choiceCol chosen' := by
    rw [hd, e2, e3]; exact choice_of c2 c3 hc
  obtain ⟨n, x, labels, H, F, U, hU, -, -, hrep, hmax, -⟩ := logit_fit_report hm (hsp.trans hspec) ha' h2 hids hc' hsol
    label sf before after args hpoint hst hafter
  choose p q q1 q2 q3 q4 q5 q6 using hU
  have hsum : ∀ y, ∑ r, (tableOf m ids).y r * Real.log ((tableOf m ids).prob (U y) r) =
      ll df a.obsIdCol a.choiceCol fun r => rowUtility m.cls alts (q y) (df.val a.altIdCol r)
        (callersIndex df a.altIdCol (specColumns alts s) (p y).index r) := by
    intro y
    have h := sum_of c1 c2 c3 alts (by rw [← hspec]; exact hcol) (rowUtility m.cls alts (q y)) (p y).index
    rw [← hspec, ← hd] at h
    unfold ll
    rw [← h]
    have hUy : U y = fun r => rowUtility m.cls alts (q y) (m.data.val a.altIdCol r)
        (rowIndex m.data a.altIdCol (specColumns alts s) (p y).index r) := by
      funext r
      rw [q6 y r, e1]
    rw [hUy]
    simp only [tableOf, LongData.y, LongData.prob, e2, e3]
    rfl
  refine ⟨hcls, n, x, fun y r => rowUtility m.cls alts (q y) (df.val a.altIdCol r)
      (callersIndex df a.altIdCol (specColumns alts s) (p y).index r), (tableOf m ids).logLik args.ridge U x,
    fun θ => ⟨p θ, q θ, q1 θ, q2 θ, q3 θ, q4 θ, q5 θ, fun r => rfl⟩, ?_, hrep.statistics.logLik, hrep.statistics.llf,
    ?_, ?_, fun hmin y => ?_⟩
  · unfold LongData.logLik
    rw [hsum]
  · rw [hrep.statistics.rhoSq]
    have h : (tableOf m ids).equalShares = (⟨df, a.obsIdCol, a.choiceCol, []⟩ : LongData).equalShares := by
      unfold tableOf
      rw [hd, e2, e3, eq_shares_df c2 c3]
      rfl
    rw [h]
  · rw [hrep.statistics.params]; rfl
  · have h := hmax hmin y
    unfold LongData.logLik at h ⊢
    rw [hsum y] at h
    exact h

/-! ## Every parameter vector can be realised -/

theorem parts_length {cls : ModelType} (hcls : cls ≠ .nested ∧ cls ≠ .mixed) {alts : List ℝ} {iref sref : PyRef}
    {p p' : ParamArrays} {q q' : AltParams} (h : HoldsFor cls alts iref sref p q) (h' : HoldsFor cls alts iref sref p' q')
    (hs : p.shapes = none ↔ cls = .mnl ∨ cls = .cloglog) (hs' : p'.shapes = none ↔ cls = .mnl ∨ cls = .cloglog)
    (hi : p.intercepts = none ↔ cls = .mnl ∨ iref = .none ∨ alts.length = 1)
    (hi' : p'.intercepts = none ↔ cls = .mnl ∨ iref = .none ∨ alts.length = 1) :
    (p.shapes.getD []).length = (p'.shapes.getD []).length ∧
      (p.intercepts.getD []).length = (p'.intercepts.getD []).length := by
  constructor
  · by_cases hn : cls = .mnl ∨ cls = .cloglog
    · rw [hs.2 hn, hs'.2 hn]
    · by_cases hu : cls = .scobit ∨ cls = .uneven
      · rw [h.shape hu, h'.shape hu]; simp
      · have hasym : cls = .asym := by
          cases cls <;> simp_all
        obtain ⟨x, e, z, hz, hr, hx, -⟩ := h.eta hasym
        obtain ⟨x', e', z', hz', hr', hx', -⟩ := h'.eta hasym
        rw [e, e', hx, hx']
        simp [List.length_eraseIdx, hz, hz']
  · by_cases hn : cls = .mnl ∨ iref = .none ∨ alts.length = 1
    · rw [hi.2 hn, hi'.2 hn]
    · cases e : p.intercepts with
      | none => exact absurd (hi.1 e) hn
      | some x =>
        cases e' : p'.intercepts with
        | none => exact absurd (hi'.1 e') hn
        | some x' =>
          obtain ⟨z, hz, -, hx, -⟩ := h.icpt x e
          obtain ⟨z', hz', -, hx', -⟩ := h'.icpt x' e'
          simp [hx, hx', List.length_eraseIdx, hz, hz']

theorem others_agree {alts : List ℝ} {ref : PyRef} {q q' : ℝ → ℝ} {x : List ℝ} (h : ListsOthers alts ref q x)
    (h' : ListsOthers alts ref q' x) : ∀ a ∈ alts, q a = q' a := by
  obtain ⟨z, hz, hr, hx, h0⟩ := h
  obtain ⟨z', hz', hr', hx', h0'⟩ := h'
  have : z' = z := by
    rw [hr] at hr'
    injection hr' with e
    exact_mod_cast e.symm
  subst this
  intro a ha
  obtain ⟨i, hi, rfl⟩ := List.getElem_of_mem ha
  by_cases e : i = z'
  · subst e; rw [h0, h0']
  · have : alts[i] ∈ alts.eraseIdx z' := List.mem_eraseIdx_iff_getElem.2 ⟨i, hi, e, rfl⟩
    rw [hx] at hx'
    exact List.map_inj_left.1 hx' _ this

theorem utility_congr {cls : ModelType} {alts : List ℝ} {iref sref : PyRef} {p p' : ParamArrays} {q q' : AltParams}
    (h : HoldsFor cls alts iref sref p q) (h' : HoldsFor cls alts iref sref p' q') (es : p.shapes = p'.shapes)
    (ei : p.intercepts = p'.intercepts) {a : ℝ} (ha : a ∈ alts) (v : ℝ) :
    rowUtility cls alts q a v = rowUtility cls alts q' a v := by
  have hi : ∀ b ∈ alts, q.icpt b = q'.icpt b := by
    intro b hb
    cases e : p.intercepts with
    | none => rw [h.noIcpt e b hb, h'.noIcpt (ei ▸ e) b hb]
    | some x => exact others_agree (h.icpt x e) (h'.icpt x (ei ▸ e)) b hb
  have hu : cls = .scobit ∨ cls = .uneven → ∀ b ∈ alts, q.shape b = q'.shape b := by
    intro hc b hb
    have e := h.shape hc
    rw [es, h'.shape hc] at e
    exact (List.map_inj_left.1 (Option.some.inj e) b hb).symm
  have hs : cls = .asym → ∀ b ∈ alts, q.shape b = q'.shape b := by
    intro hc
    obtain ⟨x, e, hx⟩ := h.eta hc
    obtain ⟨x', e', hx'⟩ := h'.eta hc
    rw [es, e'] at e
    rw [Option.some.inj e] at hx'
    exact others_agree hx hx'
  cases cls with
  | mnl => rfl
  | nested => rfl
  | mixed => rfl
  | cloglog => simp only [rowUtility, hi a ha]
  | scobit => simp only [rowUtility, hi a ha, hu (.inl rfl) a ha]
  | uneven => simp only [rowUtility, hi a ha, hu (.inr rfl) a ha]
  | asym =>
    have : (alts.map fun b => Real.exp (q.shape b)) = alts.map fun b => Real.exp (q'.shape b) :=
      List.map_congr_left fun b hb => by rw [hs rfl b hb]
    simp only [rowUtility, hi a ha, hs rfl a ha, this]

/-- Any parameters of the right kind are those of some vector. -/
theorem realise {cls : ModelType} (hcls : cls ≠ .nested ∧ cls ≠ .mixed) {alts : List ℝ} {iref sref : PyRef}
    {df : Frame ℝ} {alt : String} (hmem : ∀ r, df.val alt r ∈ alts) {cols : List (ColDesc ℝ)} {n : ℕ}
    {U : (Fin n → ℝ) → Fin df.numRows → ℝ} (hU : Doc cls alts iref sref df alt cols U)
    {p : ParamArrays} {q : AltParams} (h : HoldsFor cls alts iref sref p q)
    (hs : p.shapes = none ↔ cls = .mnl ∨ cls = .cloglog)
    (hi : p.intercepts = none ↔ cls = .mnl ∨ iref = .none ∨ alts.length = 1) (hl : p.index.length = cols.length) :
    ∃ y : Fin n → ℝ, List.ofFn y = p.shapes.getD [] ++ (p.intercepts.getD [] ++ p.index) ∧
      ∀ r, U y r = rowUtility cls alts q (df.val alt r) (callersIndex df alt cols p.index r) := by
  set L := p.shapes.getD [] ++ (p.intercepts.getD [] ++ p.index) with hL
  obtain ⟨p₀, q₀, a1, a2, a3, a4, a5, -⟩ := hU fun _ => 0
  obtain ⟨l1, l2⟩ := parts_length hcls h a1 hs a2 hi a3
  have hn : L.length = n := by
    have := congrArg List.length a5
    simp only [List.length_ofFn, List.length_append] at this
    simp only [hL, List.length_append]
    omega
  subst hn
  refine ⟨L.get, List.ofFn_get L, fun r => ?_⟩
  obtain ⟨p', q', b1, b2, b3, b4, b5, b6⟩ := hU L.get
  obtain ⟨k1, k2⟩ := parts_length hcls h b1 hs b2 hi b3
  rw [List.ofFn_get, hL] at b5
  obtain ⟨d1, d23⟩ := List.append_inj b5 k1
  obtain ⟨d2, d3⟩ := List.append_inj d23 k2
  have key : ∀ {o o' : Option (List ℝ)}, (o = none ↔ o' = none) → o.getD [] = o'.getD [] → o = o' := by
    intro o o' h1 h2
    cases o <;> cases o' <;> simp_all
  have es : p.shapes = p'.shapes := key (hs.trans b2.symm) d1
  have ei : p.intercepts = p'.intercepts := key (hi.trans b3.symm) d2
  rw [b6 r, d3]
  exact (utility_congr h b1 es ei (hmem r) _).symm

/-- Two models of one class whose arguments agree on everything but the specification and the names. -/
theorem same_class {env env' : Env ℝ} {ty : String} {df df' : Frame ℝ} {a : ModelArgs ℝ} {m m' : ChoiceModel ℝ}
    {sp : List (String × PyVal ℝ)} {nm : Option (List (String × PyVal ℝ))}
    (hm : createChoiceModel env ty df a = .ok m)
    (hm' : createChoiceModel env' ty df' { a with specification := sp, names := nm } = .ok m') :
    m'.cls = m.cls ∧ m'.args.interceptRefPos = m.args.interceptRefPos ∧ m'.args.shapeRefPos = m.args.shapeRefPos := by
  unfold createChoiceModel at hm hm'
  split at hm
  · cases hm
  · rename_i cls e
    rw [e] at hm'
    obtain ⟨-, h⟩ := classInit_iff.1 hm
    obtain ⟨-, h'⟩ := classInit_iff.1 hm'
    obtain ⟨c, -, -, b⟩ := baseInit_attrs h
    obtain ⟨c', -, -, b'⟩ := baseInit_attrs h'
    rw [b, b', c, c']
    cases cls <;> exact ⟨rfl, rfl, rfl⟩

theorem better {df : Frame ℝ} {obs choice : String} {chosen : ℝ → Fin df.numRows}
    (hc : OneChoicePerObs df obs choice chosen) {t t' : FitAttrs} {L L' : ℝ} (h1 : t.logLik = some L) (h2 : t.llf = some L)
    (h3 : t.rhoSq = some (1 - L / (⟨df, obs, choice, []⟩ : LongData).equalShares)) (h1' : t'.logLik = some L')
    (h2' : t'.llf = some L') (h3' : t'.rhoSq = some (1 - L' / (⟨df, obs, choice, []⟩ : LongData).equalShares))
    (h : L ≤ L') : FitsAtLeastAsWell t t' ∧ RhoAtLeast t t' := by
  refine ⟨⟨L, L', h2, h2', h1, h1', by linarith⟩, _, _, h3, h3', ?_⟩
  have := div_le_div_of_nonpos_of_le (equalShares_nonpos hc []) h
  linarith

/-- Both fits are of one class, and every index of the first model is an index of the second at no higher penalty. -/
theorem wider {env env' : Env ℝ} {ty : String} {df : Frame ℝ} {a : ModelArgs ℝ} {m m' : ChoiceModel ℝ}
    {s s' : List (String × SpecVal ℝ)} {nm : Option (List (String × PyVal ℝ))}
    (hm : createChoiceModel env ty df a = .ok m) (hspec : a.specification = encodeAll s)
    (hm' : createChoiceModel env' ty df { a with specification := encodeAll s', names := nm } = .ok m')
    {alts : List ℝ} (ha : AltsOf df a.altIdCol alts) (h2 : m.cls = .asym → 2 ≤ alts.length)
    {chosen : ℝ → Fin df.numRows} (hc : OneChoicePerObs df a.obsIdCol a.choiceCol chosen)
    {solver solver' : Solver} (hsol : FaithfulSolver solver) (hsol' : FaithfulSolver solver')
    (hmin : MinimisingSolver solver')
    {label label' : PyVal ℝ → String} {sf sf' : ℝ → ℝ} {args args' : FitArgs} (hpoint : args.justPoint = false)
    (hpoint' : args'.justPoint = false) (hridge : args'.ridge = args.ridge)
    (hspan : ∀ β : List ℝ, β.length = (specColumns alts s).length →
      ∃ β' : List ℝ, β'.length = (specColumns alts s').length ∧
        args.ridge.getD 0 * (β'.map (· ^ 2)).sum ≤ args.ridge.getD 0 * (β.map (· ^ 2)).sum ∧
        ∀ r, callersIndex df a.altIdCol (specColumns alts s') β' r = callersIndex df a.altIdCol (specColumns alts s) β r)
    {t t' : FitAttrs} (ht : HoldsResultsOf label sf m (logitFitCall solver m args) t)
    (ht' : HoldsResultsOf label' sf' m' (logitFitCall solver' m' args') t') :
    FitsAtLeastAsWell t t' ∧ RhoAtLeast t t' := by
  obtain ⟨k1, k2, k3⟩ := same_class hm hm'
  obtain ⟨hcls, n, x, U, L, hU, hL, g1, g2, g3, -, -⟩ := extract hm hspec ha h2 hc hsol hpoint ht
  obtain ⟨-, n', x', U', L', hU', -, g1', g2', g3', -, hmax⟩ :=
    extract hm' rfl ha (by rw [k1]; exact h2) hc hsol' hpoint' ht'
  refine better hc g1 g2 g3 g1' g2' g3' ?_
  obtain ⟨p, q, c1, c2, c3, c4, c5, c6⟩ := hU x
  obtain ⟨β', b1, b2, b3⟩ := hspan p.index c4
  rw [k1, k2, k3] at hU'
  obtain ⟨y, y1, y2⟩ := realise hcls (fun r => (ha.mem _).2 ⟨r, rfl⟩) hU' (p := { p with index := β' }) (q := q)
    ⟨c1.noIcpt, c1.icpt, c1.shape, c1.eta⟩ c2 c3 b1
  have h := hmax hmin y
  refine le_trans ?_ h
  have hu : U' y = U x := by
    funext r
    rw [y2 r, c6 r]
    simp only [b3 r]
  have hsq : args.ridge.getD 0 * ∑ k, y k ^ 2 ≤ args.ridge.getD 0 * ∑ k, x k ^ 2 := by
    rw [ofFn_sq, ofFn_sq, y1, c5]
    simp only [List.map_append, List.sum_append]
    nlinarith [b2]
  rw [hL, hridge]
  simp only [hu]
  linarith

end LR

open LR in
/-- A model with more variables fits at least as well: of two models of one type of the same table, the variables of one
of which are among those of the other, the one with more variables reports the higher log-likelihood and rho-squared,
whatever the starting values and whatever the optimiser of the smaller fit returned. -/
theorem more_variables_fit_better {env env' : Env ℝ} {ty : String} {df : Frame ℝ} {a : ModelArgs ℝ} {m m' : ChoiceModel ℝ}
    {s s' : List (String × SpecVal ℝ)} {nm : Option (List (String × PyVal ℝ))}
    (hm : createChoiceModel env ty df a = .ok m) (hspec : a.specification = encodeAll s)
    (hm' : createChoiceModel env' ty df { a with specification := encodeAll s', names := nm } = .ok m')
    (hsub : s.Sublist s') {alts : List ℝ} (ha : AltsOf df a.altIdCol alts) (h2 : m.cls = .asym → 2 ≤ alts.length)
    {chosen : ℝ → Fin df.numRows} (hc : OneChoicePerObs df a.obsIdCol a.choiceCol chosen)
    {solver solver' : Solver} (hsol : FaithfulSolver solver) (hsol' : FaithfulSolver solver')
    (hmin : MinimisingSolver solver')
    {label label' : PyVal ℝ → String} {sf sf' : ℝ → ℝ} {args args' : FitArgs} (hpoint : args.justPoint = false)
    (hpoint' : args'.justPoint = false) (hridge : args'.ridge = args.ridge)
    {t t' : FitAttrs} (ht : HoldsResultsOf label sf m (logitFitCall solver m args) t)
    (ht' : HoldsResultsOf label' sf' m' (logitFitCall solver' m' args') t') :
    FitsAtLeastAsWell t t' ∧ RhoAtLeast t t' := by
  refine wider hm hspec hm' ha h2 hc hsol hsol' hmin hpoint hpoint' hridge (fun β hβ => ?_) ht ht'
  obtain ⟨β', b1, b2, b3⟩ := pad (columns_sublist alts hsub) β hβ
  exact ⟨β', b1, by rw [b2], fun r => by
    unfold callersIndex rowIndex
    exact b3 fun c => c.value ⟨df.columns, df.numRows, fun c r =>
      if c = "intercept" ∧ "intercept" ∉ df.columns then 1 else df.val c r⟩ a.altIdCol r⟩

open LR in
/-- Without a ridge penalty it is enough that every index the smaller model can give to the rows can be given to them by
the larger model. -/
theorem larger_span_fits_better {env env' : Env ℝ} {ty : String} {df : Frame ℝ} {a : ModelArgs ℝ} {m m' : ChoiceModel ℝ}
    {s s' : List (String × SpecVal ℝ)} {nm : Option (List (String × PyVal ℝ))}
    (hm : createChoiceModel env ty df a = .ok m) (hspec : a.specification = encodeAll s)
    (hm' : createChoiceModel env' ty df { a with specification := encodeAll s', names := nm } = .ok m')
    {alts : List ℝ} (ha : AltsOf df a.altIdCol alts) (h2 : m.cls = .asym → 2 ≤ alts.length)
    (hspan : ∀ β : List ℝ, β.length = (specColumns alts s).length → ∃ β' : List ℝ,
      β'.length = (specColumns alts s').length ∧
      ∀ r, callersIndex df a.altIdCol (specColumns alts s') β' r = callersIndex df a.altIdCol (specColumns alts s) β r)
    {chosen : ℝ → Fin df.numRows} (hc : OneChoicePerObs df a.obsIdCol a.choiceCol chosen)
    {solver solver' : Solver} (hsol : FaithfulSolver solver) (hsol' : FaithfulSolver solver')
    (hmin : MinimisingSolver solver')
    {label label' : PyVal ℝ → String} {sf sf' : ℝ → ℝ} {args args' : FitArgs} (hpoint : args.justPoint = false)
    (hpoint' : args'.justPoint = false) (hridge : args.ridge = none) (hridge' : args'.ridge = none)
    {t t' : FitAttrs} (ht : HoldsResultsOf label sf m (logitFitCall solver m args) t)
    (ht' : HoldsResultsOf label' sf' m' (logitFitCall solver' m' args') t') :
    FitsAtLeastAsWell t t' ∧ RhoAtLeast t t' := by
  refine wider hm hspec hm' ha h2 hc hsol hsol' hmin hpoint hpoint' (hridge'.trans hridge.symm) (fun β hβ => ?_) ht ht'
  obtain ⟨β', b1, b2⟩ := hspan β hβ
  exact ⟨β', b1, by simp [hridge], b2⟩

namespace LR

theorem split_sum {α : Type} (f : α → ℝ) (l₁ l₂ : List α) (β₁ β₂ : List ℝ) (h : β₁.length = l₁.length) :
    (((l₁ ++ l₂).zip (β₁ ++ β₂)).map fun p => f p.1 * p.2).sum =
      ((l₁.zip β₁).map fun p => f p.1 * p.2).sum + ((l₂.zip β₂).map fun p => f p.1 * p.2).sum := by
  rw [List.zip_append h.symm, List.map_append, List.sum_append]

theorem one_of_each (alts : List ℝ) (hn : alts.Nodup) (x b : ℝ) (a : ℝ) (ha : a ∈ alts) (v : String) (f : ColDesc ℝ → ℝ)
    (hf : ∀ c, f (.alt v c) = if a = c then x else 0) :
    (((alts.map (ColDesc.alt v)).zip (List.replicate alts.length b)).map fun p => f p.1 * p.2).sum = x * b := by
  induction alts with
  | nil => simp at ha
  | cons c l ih =>
    have hn' := List.nodup_cons.1 hn
    simp only [List.map_cons, List.length_cons, List.replicate_succ, List.zip_cons_cons, List.sum_cons, hf]
    by_cases e : a = c
    · subst e
      have hz : ∀ (l : List ℝ), a ∉ l →
          (((l.map (ColDesc.alt v)).zip (List.replicate l.length b)).map fun p => f p.1 * p.2).sum = 0 := by
        intro l
        induction l with
        | nil => simp
        | cons d l ih' =>
          intro h
          rw [List.mem_cons, not_or] at h
          simp only [List.map_cons, List.length_cons, List.replicate_succ, List.zip_cons_cons, List.sum_cons, hf,
            if_neg h.1, ih' h.2, zero_mul, zero_add]
      simp [hz l hn'.1]
    · rw [if_neg e, ih hn'.2 ((List.mem_cons.1 ha).resolve_left e)]
      simp

end LR

open LR in
/-- Giving a variable one coefficient for each alternative instead of one coefficient for all of them cannot make the fit
worse (without a ridge penalty). -/
theorem alternative_specific_fits_better {env env' : Env ℝ} {ty : String} {df : Frame ℝ} {a : ModelArgs ℝ}
    {m m' : ChoiceModel ℝ} {pre post : List (String × SpecVal ℝ)} {v : String} {nm : Option (List (String × PyVal ℝ))}
    (hm : createChoiceModel env ty df a = .ok m) (hspec : a.specification = encodeAll (pre ++ (v, .allSame) :: post))
    (hm' : createChoiceModel env' ty df
      { a with specification := encodeAll (pre ++ (v, .allDiff) :: post), names := nm } = .ok m')
    {alts : List ℝ} (ha : AltsOf df a.altIdCol alts) (h2 : m.cls = .asym → 2 ≤ alts.length)
    {chosen : ℝ → Fin df.numRows} (hc : OneChoicePerObs df a.obsIdCol a.choiceCol chosen)
    {solver solver' : Solver} (hsol : FaithfulSolver solver) (hsol' : FaithfulSolver solver')
    (hmin : MinimisingSolver solver')
    {label label' : PyVal ℝ → String} {sf sf' : ℝ → ℝ} {args args' : FitArgs} (hpoint : args.justPoint = false)
    (hpoint' : args'.justPoint = false) (hridge : args.ridge = none) (hridge' : args'.ridge = none)
    {t t' : FitAttrs} (ht : HoldsResultsOf label sf m (logitFitCall solver m args) t)
    (ht' : HoldsResultsOf label' sf' m' (logitFitCall solver' m' args') t') :
    FitsAtLeastAsWell t t' ∧ RhoAtLeast t t' := by
  refine larger_span_fits_better hm hspec hm' ha h2 (fun β hβ => ?_) hc hsol hsol' hmin hpoint hpoint' hridge hridge' ht ht'
  have halt : a.altIdCol ∈ df.columns := (LR.built hm).2.2.2.2.2.1
  have hl : β.length = (specColumns alts pre).length + (1 + (specColumns alts post).length) := by
    rw [hβ]; simp [specColumns, SpecVal.columns, add_comm]
  obtain ⟨β₁, β₂, rfl, h1⟩ : ∃ β₁ β₂, β = β₁ ++ β₂ ∧ β₁.length = (specColumns alts pre).length :=
    ⟨β.take _, β.drop _, (List.take_append_drop (specColumns alts pre).length β).symm, by simp [hl]⟩
  cases β₂ with
  | nil => simp [h1] at hl
  | cons b β₂ =>
    refine ⟨β₁ ++ (List.replicate alts.length b ++ β₂), ?_, fun r => ?_⟩
    · simp [specColumns, SpecVal.columns, h1] at hl ⊢
      omega
    · have e : specColumns alts (pre ++ (v, .allDiff) :: post) =
          specColumns alts pre ++ (alts.map (ColDesc.alt v) ++ specColumns alts post) := by
        simp [specColumns, SpecVal.columns]
      have e' : specColumns alts (pre ++ (v, .allSame) :: post) =
          specColumns alts pre ++ ([.same v] ++ specColumns alts post) := by
        simp [specColumns, SpecVal.columns]
      have key : ∀ (f : ColDesc ℝ → ℝ) (x : ℝ), x ∈ alts → (∀ c, f (.alt v c) = if x = c then f (.same v) else 0) →
          (((specColumns alts (pre ++ (v, .allDiff) :: post)).zip
            (β₁ ++ (List.replicate alts.length b ++ β₂))).map fun p => f p.1 * p.2).sum =
          (((specColumns alts (pre ++ (v, .allSame) :: post)).zip (β₁ ++ b :: β₂)).map fun p => f p.1 * p.2).sum := by
        intro f x hx hf
        rw [e, e', split_sum f _ _ _ _ h1, split_sum f _ _ _ _ (by simp), show b :: β₂ = [b] ++ β₂ from rfl,
          split_sum f _ _ _ _ h1, split_sum f _ _ _ _ (by simp),
          one_of_each alts (ha.ascending.imp fun h => ne_of_lt h) (f (.same v)) b x hx v f hf]
        simp
      unfold callersIndex rowIndex
      refine key (fun c => c.value ⟨df.columns, df.numRows, fun c r =>
        if c = "intercept" ∧ "intercept" ∉ df.columns then 1 else df.val c r⟩ a.altIdCol r) (df.val a.altIdCol r)
        ((ha.mem _).2 ⟨r, rfl⟩) fun c => ?_
      have hval : (if a.altIdCol = "intercept" ∧ "intercept" ∉ df.columns then 1 else df.val a.altIdCol r) =
          df.val a.altIdCol r := if_neg fun h => h.2 (h.1 ▸ halt)
      simp only [ColDesc.value, hval]

namespace LR

/-- Parameters of the same kind with intercepts of zero. -/
theorem zero_icpts {cls : ModelType} {alts : List ℝ} {iref sref : PyRef} {p₀ p : ParamArrays} {q₀ q : AltParams}
    (h₀ : HoldsFor cls alts iref sref p₀ q₀) {iref' : PyRef} (h : HoldsFor cls alts iref' sref p q) (idx : List ℝ) :
    HoldsFor cls alts iref sref
      { p with intercepts := p₀.intercepts.map (·.map fun _ => 0), index := idx } { q with icpt := fun _ => 0 } := by
  refine ⟨fun _ _ _ => rfl, fun x hx => ?_, h.shape, h.eta⟩
  simp only [Option.map_eq_some_iff] at hx
  obtain ⟨x₀, e, rfl⟩ := hx
  obtain ⟨z, hz, hr, hx, -⟩ := h₀.icpt x₀ e
  refine ⟨z, hz, hr, ?_, rfl⟩
  rw [hx, List.map_map]
  rfl

theorem zero_sq {α : Type} (o : Option (List α)) : (((o.map (·.map fun _ => (0 : ℝ))).getD []).map (· ^ 2)).sum = 0 := by
  cases o <;> simp

end LR

open LR in
/-- A model with outside intercepts fits at least as well as one of the same type without: the positions of the
alternative without an intercept may be anything. -/
theorem intercepts_fit_better {env env' : Env ℝ} {ty : String} {df : Frame ℝ} {a : ModelArgs ℝ} {m m' : ChoiceModel ℝ}
    {s s' : List (String × SpecVal ℝ)} {nm : Option (List (String × PyVal ℝ))} {names : Option (List String)} {ref : PyRef}
    (hm : createChoiceModel env ty df a = .ok m) (hspec : a.specification = encodeAll s)
    (hnone : a.interceptRefPos = .none)
    (hm' : createChoiceModel env' ty df
      { a with specification := encodeAll s', names := nm, interceptRefPos := ref, interceptNames := names } = .ok m')
    (hsub : s.Sublist s') {alts : List ℝ} (ha : AltsOf df a.altIdCol alts) (h2 : m.cls = .asym → 2 ≤ alts.length)
    {chosen : ℝ → Fin df.numRows} (hc : OneChoicePerObs df a.obsIdCol a.choiceCol chosen)
    {solver solver' : Solver} (hsol : FaithfulSolver solver) (hsol' : FaithfulSolver solver')
    (hmin : MinimisingSolver solver')
    {label label' : PyVal ℝ → String} {sf sf' : ℝ → ℝ} {args args' : FitArgs} (hpoint : args.justPoint = false)
    (hpoint' : args'.justPoint = false) (hridge : args'.ridge = args.ridge)
    {t t' : FitAttrs} (ht : HoldsResultsOf label sf m (logitFitCall solver m args) t)
    (ht' : HoldsResultsOf label' sf' m' (logitFitCall solver' m' args') t') :
    FitsAtLeastAsWell t t' ∧ RhoAtLeast t t' := by
  have hs : m'.cls = m.cls ∧ m.args.interceptRefPos = .none ∧ m'.args.shapeRefPos = m.args.shapeRefPos := by
    unfold createChoiceModel at hm hm'
    split at hm
    · cases hm
    · rename_i cls e
      rw [e] at hm'
      obtain ⟨-, h⟩ := classInit_iff.1 hm
      obtain ⟨-, h'⟩ := classInit_iff.1 hm'
      obtain ⟨c, -, -, b⟩ := baseInit_attrs h
      obtain ⟨c', -, -, b'⟩ := baseInit_attrs h'
      rw [b, b', c, c']
      cases cls <;> simp [argsFor, hnone]
  obtain ⟨k1, k2, k3⟩ := hs
  obtain ⟨hcls, n, x, U, L, hU, hL, g1, g2, g3, -, -⟩ := extract hm hspec ha h2 hc hsol hpoint ht
  obtain ⟨-, n', x', U', L', hU', -, g1', g2', g3', -, hmax⟩ :=
    extract hm' rfl ha (by rw [k1]; exact h2) hc hsol' hpoint' ht'
  refine better hc g1 g2 g3 g1' g2' g3' ?_
  obtain ⟨p, q, c1, c2, c3, c4, c5, c6⟩ := hU x
  rw [k1, k3] at hU'
  obtain ⟨p₀, q₀, d1, d2, d3, d4, d5, d6⟩ := hU' x'
  obtain ⟨β', b1, b2, b3⟩ := pad (columns_sublist alts hsub) p.index c4
  obtain ⟨y, y1, y2⟩ := realise hcls (fun r => (ha.mem _).2 ⟨r, rfl⟩) hU' (zero_icpts d1 c1 β') c2
    (by simpa using d3) b1
  have hmem : ∀ r, df.val a.altIdCol r ∈ alts := fun r => (ha.mem _).2 ⟨r, rfl⟩
  have hnoI : p.intercepts = none := c3.2 (.inr (.inl k2))
  refine le_trans ?_ (hmax hmin y)
  have hu : U' y = U x := by
    funext r
    rw [y2 r, c6 r]
    have hi : callersIndex df a.altIdCol (specColumns alts s') β' r =
        callersIndex df a.altIdCol (specColumns alts s) p.index r := by
      unfold callersIndex rowIndex
      exact b3 fun c => c.value ⟨df.columns, df.numRows, fun c r =>
        if c = "intercept" ∧ "intercept" ∉ df.columns then 1 else df.val c r⟩ a.altIdCol r
    have hz := c1.noIcpt hnoI _ (hmem r)
    simp only [hi]
    cases m.cls <;> simp [rowUtility, hz]
  have hsq : ∑ k, y k ^ 2 = ∑ k, x k ^ 2 := by
    rw [ofFn_sq, ofFn_sq, y1, c5, hnoI]
    simp only [List.map_append, List.sum_append, zero_sq, b2]
    simp
  rw [hL, hridge, hsq]
  simp only [hu]
  exact le_refl _

namespace LR

theorem mnl_class {env : Env ℝ} {df : Frame ℝ} {a : ModelArgs ℝ} {m : ChoiceModel ℝ}
    (hm : createChoiceModel env "MNL" df a = .ok m) : m.cls = .mnl := by
  have h : classInit env .mnl df a = .ok m := hm
  exact (baseInit_attrs (classInit_iff.1 h).2).1

/-- Parameters of the same kind with intercepts and shapes of zero. -/
theorem zero_params {cls : ModelType} {alts : List ℝ} {iref sref : PyRef} {p₀ : ParamArrays} {q₀ : AltParams}
    (h₀ : HoldsFor cls alts iref sref p₀ q₀) (idx : List ℝ) :
    HoldsFor cls alts iref sref { p₀ with intercepts := p₀.intercepts.map (·.map fun _ => 0)
                                          shapes := p₀.shapes.map (·.map fun _ => 0)
                                          index := idx }
      ⟨fun _ => 0, fun _ => 0⟩ := by
  refine ⟨fun _ _ _ => rfl, fun x hx => ?_, fun h => ?_, fun h => ?_⟩
  · simp only [Option.map_eq_some_iff] at hx
    obtain ⟨x₀, e, rfl⟩ := hx
    obtain ⟨z, hz, hr, hx, -⟩ := h₀.icpt x₀ e
    refine ⟨z, hz, hr, ?_, rfl⟩
    rw [hx, List.map_map]
    rfl
  · simp only [h₀.shape h, Option.map_some, List.map_map]
    rfl
  · obtain ⟨x₀, e, z, hz, hr, hx, -⟩ := h₀.eta h
    refine ⟨x₀.map fun _ => 0, by simp only [e, Option.map_some], z, hz, hr, ?_, rfl⟩
    rw [hx, List.map_map]
    rfl

theorem neutral {cls : ModelType} (h : cls = .scobit ∨ cls = .uneven) (alts : List ℝ) (a v : ℝ) :
    rowUtility cls alts ⟨fun _ => 0, fun _ => 0⟩ a v = v := by
  rcases h with rfl | rfl <;> simp [rowUtility]

theorem neutral_asym {alts : List ℝ} (h : 2 ≤ alts.length) (a v : ℝ) :
    rowUtility .asym alts ⟨fun _ => 0, fun _ => 0⟩ a v = v * Real.log alts.length - Real.log alts.length := by
  have h2 : (2 : ℝ) ≤ alts.length := by exact_mod_cast h
  have e : (1 - 1 / (alts.length : ℝ)) / (alts.length - 1) = 1 / alts.length := by
    have : (alts.length : ℝ) - 1 ≠ 0 := by linarith
    field_simp
  simp only [rowUtility, Real.exp_zero, List.map_const', List.sum_replicate, nsmul_eq_mul, mul_one, e, ite_self]
  rw [one_div, Real.log_inv]
  ring

end LR

open LR in
/-- The scobit and uneven logit models fit at least as well as the multinomial logit model of the same variables, or of
fewer of them: with any reference alternative and any ridge penalty. -/
theorem shapes_fit_better {env env' : Env ℝ} {ty : String} {df : Frame ℝ} {a a' : ModelArgs ℝ} {m m' : ChoiceModel ℝ}
    {s s' : List (String × SpecVal ℝ)} (hm : createChoiceModel env "MNL" df a = .ok m)
    (hspec : a.specification = encodeAll s) (hm' : createChoiceModel env' ty df a' = .ok m')
    (hty : m'.cls = .scobit ∨ m'.cls = .uneven) (hspec' : a'.specification = encodeAll s') (hsub : s.Sublist s')
    (hcols : a'.altIdCol = a.altIdCol ∧ a'.obsIdCol = a.obsIdCol ∧ a'.choiceCol = a.choiceCol)
    {alts : List ℝ} (ha : AltsOf df a.altIdCol alts)
    {chosen : ℝ → Fin df.numRows} (hc : OneChoicePerObs df a.obsIdCol a.choiceCol chosen)
    {solver solver' : Solver} (hsol : FaithfulSolver solver) (hsol' : FaithfulSolver solver')
    (hmin : MinimisingSolver solver')
    {label label' : PyVal ℝ → String} {sf sf' : ℝ → ℝ} {args args' : FitArgs} (hpoint : args.justPoint = false)
    (hpoint' : args'.justPoint = false) (hridge : args'.ridge = args.ridge)
    {t t' : FitAttrs} (ht : HoldsResultsOf label sf m (logitFitCall solver m args) t)
    (ht' : HoldsResultsOf label' sf' m' (logitFitCall solver' m' args') t') :
    FitsAtLeastAsWell t t' ∧ RhoAtLeast t t' := by
  obtain ⟨w1, w2, w3⟩ := hcols
  have hmnl := mnl_class hm
  obtain ⟨-, n, x, U, L, hU, hL, g1, g2, g3, -, -⟩ := extract hm hspec ha (by simp [hmnl]) hc hsol hpoint ht
  obtain ⟨hcls', n', x', U', L', hU', -, g1', g2', g3', -, hmax⟩ :=
    extract hm' hspec' (by rw [w1]; exact ha) (by rcases hty with e | e <;> simp [e]) (by rw [w2, w3]; exact hc)
      hsol' hpoint' ht'
  rw [w2, w3] at g3' hmax
  rw [w1] at hU'
  refine better hc g1 g2 g3 g1' g2' g3' ?_
  obtain ⟨p, q, c1, c2, c3, c4, c5, c6⟩ := hU x
  rw [hmnl] at c1 c2 c3 c6
  obtain ⟨p₀, q₀, d1, d2, d3, d4, d5, d6⟩ := hU' x'
  obtain ⟨β', b1, b2, b3⟩ := pad (columns_sublist alts hsub) p.index c4
  obtain ⟨y, y1, y2⟩ := realise hcls' (fun r => (ha.mem _).2 ⟨r, rfl⟩) hU' (zero_params d1 β') (by simpa using d2)
    (by simpa using d3) b1
  refine le_trans ?_ (hmax hmin y)
  have hu : U' y = U x := by
    funext r
    rw [y2 r, c6 r, neutral hty]
    unfold callersIndex rowIndex
    exact b3 fun c => c.value ⟨df.columns, df.numRows, fun c r =>
      if c = "intercept" ∧ "intercept" ∉ df.columns then 1 else df.val c r⟩ a.altIdCol r
  have hsq : ∑ k, y k ^ 2 = ∑ k, x k ^ 2 := by
    rw [ofFn_sq, ofFn_sq, y1, c5, c2.2 (.inl rfl), c3.2 (.inl rfl)]
    simp only [List.map_append, List.sum_append, zero_sq, b2]
    simp
  rw [hL, hridge, hsq]
  simp only [hu]
  exact le_refl _

open LR in
/-- The asymmetric logit model fits at least as well as the multinomial logit model of the same variables, or of fewer of
them, if the utilities of the multinomial logit fit are not extreme; with two alternatives, only without a ridge
penalty. -/
theorem asym_fits_better {env env' : Env ℝ} {ty : String} {df : Frame ℝ} {a a' : ModelArgs ℝ} {m m' : ChoiceModel ℝ}
    {s s' : List (String × SpecVal ℝ)} (hm : createChoiceModel env "MNL" df a = .ok m)
    (hspec : a.specification = encodeAll s) (hm' : createChoiceModel env' ty df a' = .ok m')
    (hty : m'.cls = .asym) (hspec' : a'.specification = encodeAll s') (hsub : s.Sublist s')
    (hcols : a'.altIdCol = a.altIdCol ∧ a'.obsIdCol = a.obsIdCol ∧ a'.choiceCol = a.choiceCol)
    {alts : List ℝ} (ha : AltsOf df a.altIdCol alts) (h2 : 2 ≤ alts.length)
    {chosen : ℝ → Fin df.numRows} (hc : OneChoicePerObs df a.obsIdCol a.choiceCol chosen)
    {solver solver' : Solver} (hsol : FaithfulSolver solver) (hsol' : FaithfulSolver solver')
    (hmin : MinimisingSolver solver')
    {label label' : PyVal ℝ → String} {sf sf' : ℝ → ℝ} {args args' : FitArgs} (hpoint : args.justPoint = false)
    (hpoint' : args'.justPoint = false) (hridge : args'.ridge = args.ridge)
    (hpen : args.ridge.getD 0 = 0 ∨ 3 ≤ alts.length ∧ 0 ≤ args.ridge.getD 0)
    {t t' : FitAttrs} (ht : HoldsResultsOf label sf m (logitFitCall solver m args) t)
    (ht' : HoldsResultsOf label' sf' m' (logitFitCall solver' m' args') t')
    (hmod : ∀ β, t.params.map Series.values = some β → ∀ r,
      |callersIndex df a.altIdCol (specColumns alts s) β r| ≤ 700 ∧
      |callersIndex df a.altIdCol (specColumns alts s) β r - Real.log alts.length| ≤ 700) :
    FitsAtLeastAsWell t t' ∧ RhoAtLeast t t' := by
  obtain ⟨w1, w2, w3⟩ := hcols
  have hmnl := mnl_class hm
  obtain ⟨-, n, x, U, L, hU, hL, g1, g2, g3, g4, -⟩ := extract hm hspec ha (by simp [hmnl]) hc hsol hpoint ht
  obtain ⟨hcls', n', x', U', L', hU', -, g1', g2', g3', -, hmax⟩ :=
    extract hm' hspec' (by rw [w1]; exact ha) (fun _ => h2) (by rw [w2, w3]; exact hc) hsol' hpoint' ht'
  rw [w2, w3] at g3' hmax
  rw [w1] at hU'
  refine better hc g1 g2 g3 g1' g2' g3' ?_
  obtain ⟨p, q, c1, c2, c3, c4, c5, c6⟩ := hU x
  rw [hmnl] at c1 c2 c3 c6
  obtain ⟨p₀, q₀, d1, d2, d3, d4, d5, d6⟩ := hU' x'
  obtain ⟨β', b1, b2, b3⟩ := pad (columns_sublist alts hsub) p.index c4
  have hlog : Real.log alts.length ≠ 0 :=
    Real.log_ne_zero_of_pos_of_ne_one (by positivity) (by exact_mod_cast (by omega : alts.length ≠ 1))
  obtain ⟨y, y1, y2⟩ := realise hcls' (fun r => (ha.mem _).2 ⟨r, rfl⟩) hU'
    (zero_params d1 (β'.map (· / Real.log alts.length))) (by simpa using d2) (by simpa using d3) (by simpa using b1)
  refine le_trans ?_ (hmax hmin y)
  have hidx : List.ofFn x = p.index := by rw [c5, c2.2 (.inl rfl), c3.2 (.inl rfl)]; rfl
  have hV : ∀ r, U x r = callersIndex df a.altIdCol (specColumns alts s) p.index r := fun r => by rw [c6 r]; rfl
  have hm1 := hmod _ g4
  rw [hidx] at hm1
  have hu : ∀ r, U' y r = U x r + -Real.log alts.length := by
    intro r
    rw [y2 r, hty, neutral_asym h2, hV r]
    have : callersIndex df a.altIdCol (specColumns alts s') (β'.map (· / Real.log alts.length)) r *
        Real.log alts.length = callersIndex df a.altIdCol (specColumns alts s) p.index r := by
      have key : ∀ f : ColDesc ℝ → ℝ, (((specColumns alts s').zip (β'.map (· / Real.log alts.length))).map
          fun p => f p.1 * p.2).sum * Real.log alts.length =
          (((specColumns alts s).zip p.index).map fun p => f p.1 * p.2).sum := by
        intro f
        rw [← List.sum_map_mul_right, ← b3 f, List.zip_map_right, List.map_map]
        refine congrArg List.sum (List.map_congr_left fun c _ => ?_)
        simp only [Function.comp, Prod.map, id]
        field_simp
      unfold callersIndex rowIndex
      exact key fun c => c.value ⟨df.columns, df.numRows, fun c r =>
        if c = "intercept" ∧ "intercept" ∉ df.columns then 1 else df.val c r⟩ a.altIdCol r
    rw [this]
    ring
  have hll : ll df a.obsIdCol a.choiceCol (U' y) = ll df a.obsIdCol a.choiceCol (U x) := by
    unfold ll
    refine Finset.sum_congr rfl fun r _ => ?_
    congr 2
    unfold clippedLogit
    have k1 : (fun r => clip700 (U' y r)) = fun r => U x r + -Real.log alts.length := by
      funext r
      rw [hu r, hV r]
      obtain ⟨h, h'⟩ := abs_le.1 (hm1 r).2
      rw [clip700, min_eq_left (by linarith), max_eq_right (by linarith)]
    have k2 : (fun r => clip700 (U x r)) = U x := by
      funext r
      rw [hV r]
      obtain ⟨h, h'⟩ := abs_le.1 (hm1 r).1
      rw [clip700, min_eq_left (by linarith), max_eq_right (by linarith)]
    rw [k1, k2]
    simp only [logitProb, Real.exp_add, ← Finset.sum_mul]
    rw [mul_div_mul_right _ _ (Real.exp_pos _).ne']
  have hsq : args.ridge.getD 0 * ∑ k, y k ^ 2 ≤ args.ridge.getD 0 * ∑ k, x k ^ 2 := by
    rcases hpen with e | ⟨h3, e⟩
    · rw [e, zero_mul, zero_mul]
    · refine mul_le_mul_of_nonneg_left ?_ e
      have hlog1 : 1 ≤ Real.log alts.length := by
        rw [Real.le_log_iff_exp_le (by positivity)]
        have : (3 : ℝ) ≤ alts.length := by exact_mod_cast h3
        linarith [Real.exp_one_lt_d9]
      rw [ofFn_sq, ofFn_sq, y1, hidx]
      simp only [List.map_append, List.sum_append, zero_sq, zero_add, List.map_map]
      rw [← b2]
      refine List.sum_le_sum fun b _ => ?_
      simp only [Function.comp]
      rw [div_pow]
      exact div_le_self (sq_nonneg b) (one_le_pow₀ hlog1)
  rw [hL, hridge, hll]
  linarith

namespace LR

theorem zero_one {df : Frame ℝ} {obs choice : String} {chosen : ℝ → Fin df.numRows}
    (hc : OneChoicePerObs df obs choice chosen) (r : Fin df.numRows) :
    df.val choice r = if df.val choice r = 1 then 1 else 0 := by
  by_cases h : r = chosen (df.val obs r)
  · have := hc.one r
    rw [← h] at this
    rw [if_pos this]
    exact this
  · have := hc.zero r h
    rw [this]
    simp

theorem logit_pos {R O : Type} [Fintype R] [DecidableEq O] (f : R → O) (h : R → ℝ) (r : R) : 0 < logitProb f h r := by
  unfold logitProb
  refine div_pos (Real.exp_pos _) (Finset.sum_pos (fun _ _ => Real.exp_pos _) ⟨r, by simp⟩)

theorem clipped_pos {R O : Type} [Fintype R] [DecidableEq O] (f : R → O) (h : R → ℝ) (r : R) : 0 < clippedLogit f h r :=
  logit_pos _ _ _

/-- The log-probabilities of the choices of the people add up to those of the rows. -/
theorem people_sum {df : Frame ℝ} {obs choice mix : String} {chosen : ℝ → Fin df.numRows}
    (hc : OneChoicePerObs df obs choice chosen) (P : Fin df.numRows → ℝ) (hP : ∀ r, 0 < P r) :
    ((firstAppearance (df.colList mix)).map fun who =>
      Real.log (∏ r with df.val mix r = who ∧ df.val choice r = 1, P r)).sum =
    ∑ r, df.val choice r * Real.log (P r) := by
  have hnd : (firstAppearance (df.colList mix)).Nodup :=
    (firstAppearance_pairwise _).imp fun h e => by subst e; exact lt_irrefl _ h
  rw [← List.sum_toFinset _ hnd]
  have e : ∀ who, Real.log (∏ r with df.val mix r = who ∧ df.val choice r = 1, P r) =
      ∑ r with df.val mix r = who, df.val choice r * Real.log (P r) := by
    intro who
    rw [Real.log_prod fun r _ => (hP r).ne', ← Finset.filter_filter, Finset.sum_filter]
    refine Finset.sum_congr rfl fun r _ => ?_
    rw [zero_one hc r]
    by_cases h : df.val choice r = 1 <;> simp [h]
  simp only [e]
  rw [Finset.sum_fiberwise_of_maps_to fun r _ => ?_]
  rw [List.mem_toFinset, mem_firstAppearance, mem_colList]
  exact ⟨r, rfl⟩

theorem average_const {d : ℕ} (hd : 0 < d) (x : ℝ) : (average fun _ : Fin d => x) = x := by
  have : (d : ℝ) ≠ 0 := by positivity
  simp only [average, Finset.sum_const, Finset.card_univ, Fintype.card_fin, nsmul_eq_mul]
  field_simp

theorem no_spread {n : ℕ} (mean : List ℝ) (col : Fin n → ℕ) (z : Fin n → ℝ) :
    personCoefs mean (fun _ => 0) col z = mean := by
  unfold personCoefs
  simp

end LR

namespace LR

/-- At parameters of zero all alternatives have the same utility. -/
theorem zero_utility {cls : ModelType} (alts : List ℝ) (h2 : cls = .asym → 2 ≤ alts.length) :
    ∃ u, ∀ a, rowUtility cls alts ⟨fun _ => 0, fun _ => 0⟩ a 0 = u := by
  by_cases h : cls = .asym
  · subst h
    exact ⟨_, fun a => neutral_asym (h2 rfl) a 0⟩
  · cases cls with
    | asym => exact absurd rfl h
    | scobit => exact ⟨0, fun a => neutral (.inl rfl) alts a 0⟩
    | uneven => exact ⟨0, fun a => neutral (.inr rfl) alts a 0⟩
    | mnl => exact ⟨_, fun a => rfl⟩
    | nested => exact ⟨_, fun a => rfl⟩
    | mixed => exact ⟨_, fun a => rfl⟩
    | cloglog => exact ⟨rowUtility .cloglog alts ⟨fun _ => 0, fun _ => 0⟩ 0 0, fun a => by simp [rowUtility]⟩

theorem index_zero (df : Frame ℝ) (alt : String) (cols : List (ColDesc ℝ)) (n : ℕ) (r : Fin df.numRows) :
    callersIndex df alt cols (List.replicate n 0) r = 0 := by
  unfold callersIndex rowIndex
  refine List.sum_eq_zero fun v hv => ?_
  obtain ⟨p, hp, rfl⟩ := List.mem_map.1 hv
  rw [List.eq_of_mem_replicate (List.of_mem_zip hp).2, mul_zero]

theorem flat_ll (df : Frame ℝ) (obs choice : String) (u : ℝ) :
    ll df obs choice (fun _ => u) = (⟨df, obs, choice, []⟩ : LongData).equalShares := by
  unfold ll LongData.equalShares
  refine Finset.sum_congr rfl fun r _ => ?_
  have : clippedLogit (df.val obs) (fun _ => u) r =
      1 / (((⟨df, obs, choice, []⟩ : LongData).rows (df.val obs r)).card : ℝ) := by
    simp only [clippedLogit, logitProb, Finset.sum_const, nsmul_eq_mul, LongData.rows, rowsOf]
    field_simp
  rw [this]
  rfl

theorem ll_nonpos {df : Frame ℝ} {obs choice : String} {chosen : ℝ → Fin df.numRows}
    (hc : OneChoicePerObs df obs choice chosen) (u : Fin df.numRows → ℝ) : ll df obs choice u ≤ 0 := by
  unfold ll
  refine Finset.sum_nonpos fun r _ => mul_nonpos_of_nonneg_of_nonpos (choices_nonneg hc r) ?_
  refine Real.log_nonpos (clipped_pos _ _ _).le ?_
  have := Sep.prob_sum (df.val obs) (fun r => clip700 (u r)) r
  rw [← this]
  exact Finset.single_le_sum (f := fun s => logitProb (df.val obs) (fun r => clip700 (u r)) s)
    (fun s _ => (Sep.prob_pos (df.val obs) (fun r => clip700 (u r)) s).le) (by simp)

end LR

open LR in
/-- A fit is never worse than equal shares, and its estimates are bounded by the ridge penalty: with an optimiser that
finds global maxima, a fit of a multinomial, clog-log, scobit, uneven or asymmetric logit model reports a log-likelihood
at least that of equal shares, which is its null log-likelihood. So the likelihood ratio statistic against equal shares
is not negative; the rho-squared is at least 0, and with a ridge penalty that is not negative at most 1; and the sum of
the squares of the estimates times the penalty is at most the log-likelihood of equal shares in absolute value. -/
theorem fits_beat_equal_shares {env : Env ℝ} {ty : String} {df : Frame ℝ} {a : ModelArgs ℝ} {m : ChoiceModel ℝ}
    {s : List (String × SpecVal ℝ)} (hm : createChoiceModel env ty df a = .ok m) (hspec : a.specification = encodeAll s)
    {alts : List ℝ} (ha : AltsOf df a.altIdCol alts) (h2 : m.cls = .asym → 2 ≤ alts.length)
    {chosen : ℝ → Fin df.numRows} (hc : OneChoicePerObs df a.obsIdCol a.choiceCol chosen)
    {solver : Solver} (hsol : FaithfulSolver solver) (hmin : MinimisingSolver solver)
    {label : PyVal ℝ → String} {sf : ℝ → ℝ} {args : FitArgs} (hpoint : args.justPoint = false)
    {t : FitAttrs} (ht : HoldsResultsOf label sf m (logitFitCall solver m args) t) :
    let L₀ := (⟨df, a.obsIdCol, a.choiceCol, []⟩ : LongData).equalShares
    ∃ L x ρ, t.llf = some L ∧ t.logLik = some L ∧ t.params.map Series.values = some x ∧ t.rhoSq = some ρ ∧
      0 ≤ 2 * (L - L₀) ∧ (L₀ ≠ 0 → 0 ≤ ρ) ∧
      (0 ≤ args.ridge.getD 0 → ρ ≤ 1 ∧ args.ridge.getD 0 * (x.map (· ^ 2)).sum ≤ |L₀|) := by
  intro L₀
  obtain ⟨hcls, n, x, U, L, hU, hL, g1, g2, g3, g4, hmax⟩ := extract hm hspec ha h2 hc hsol hpoint ht
  have h0 : L₀ ≤ 0 := equalShares_nonpos hc []
  have hb : L₀ ≤ L := by
    obtain ⟨p₀, q₀, d1, d2, d3, d4, d5, d6⟩ := hU x
    obtain ⟨u, hu⟩ := zero_utility alts h2
    obtain ⟨y, y1, y2⟩ := realise hcls (fun r => (ha.mem _).2 ⟨r, rfl⟩) hU
      (zero_params d1 (List.replicate (specColumns alts s).length 0)) (by simpa using d2) (by simpa using d3) (by simp)
    have hy := hmax hmin y
    have e1 : ∑ k, y k ^ 2 = 0 := by
      rw [ofFn_sq, y1]
      simp only [List.map_append, List.sum_append, zero_sq]
      simp
    have e2 : U y = fun _ => u := by
      funext r
      rw [y2 r]
      simp only [index_zero, hu]
    rw [e1, e2, flat_ll, mul_zero, sub_zero] at hy
    exact hy
  refine ⟨L, List.ofFn x, _, g2, g1, g4, g3, by linarith, fun hne => ?_, fun hρ => ?_⟩
  · have hlt : L₀ < 0 := lt_of_le_of_ne h0 hne
    have : L / L₀ ≤ 1 := (div_le_one_of_neg hlt).2 hb
    change 0 ≤ 1 - L / L₀
    linarith
  · have hx : ll df a.obsIdCol a.choiceCol (U x) ≤ 0 := ll_nonpos hc _
    have hsq : 0 ≤ ∑ k, x k ^ 2 := Finset.sum_nonneg fun k _ => sq_nonneg _
    have hL0 : L ≤ 0 := by rw [hL]; nlinarith [mul_nonneg hρ hsq]
    refine ⟨?_, ?_⟩
    · have : 0 ≤ L / L₀ := div_nonneg_of_nonpos hL0 h0
      change 1 - L / L₀ ≤ 1
      linarith
    · rw [← ofFn_sq, abs_of_nonpos h0]
      linarith

open LR in
/-- The mixed logit model fits at least as well as the multinomial logit model of the same variables, or of fewer of them:
with any mixed variables, any number of draws, any seed and any ridge penalty. -/
theorem mixing_fits_better (g : Rng) {env env' : Env ℝ} {df : Frame ℝ} {a a' : ModelArgs ℝ} {m m' : ChoiceModel ℝ}
    {s s' : List (String × SpecVal ℝ)} (hm : createChoiceModel env "MNL" df a = .ok m)
    (hspec : a.specification = encodeAll s) (hm' : createChoiceModel env' "Mixed Logit" df a' = .ok m')
    (hspec' : a'.specification = encodeAll s') (hsub : s.Sublist s') (hkeys : (s'.map Prod.fst).Nodup)
    (hnm : ∀ ns, m'.args.names = some ns → (ns.map Prod.fst).Nodup)
    {vars : List String} (hvars : a'.mixingVars = some vars)
    (hnames : ∀ v ∈ vars, .str v ∈ m'.indVarNames)
    (hcols : a'.altIdCol = a.altIdCol ∧ a'.obsIdCol = a.obsIdCol ∧ a'.choiceCol = a.choiceCol)
    {alts : List ℝ} (ha : AltsOf df a.altIdCol alts)
    {chosen : ℝ → Fin df.numRows} (hc : OneChoicePerObs df a.obsIdCol a.choiceCol chosen)
    {solver solver' : Solver} (hsol : FaithfulSolver solver) (hsol' : FaithfulSolver solver')
    (hmin : MinimisingSolver solver')
    {label label' : PyVal ℝ → String} {sf sf' : ℝ → ℝ} {args : FitArgs} {args' : MixedFitArgs} {st : g.State}
    (hpoint : args.justPoint = false) (hpoint' : args'.justPoint = false) (hridge : args'.ridge = args.ridge)
    {t t' : FitAttrs} (ht : HoldsResultsOf label sf m (logitFitCall solver m args) t)
    (ht' : HoldsResultsOf label' sf' m' (mixedFitCall g solver' m' args' st) t') :
    FitsAtLeastAsWell t t' ∧ RhoAtLeast t t' := by
  obtain ⟨w1, w2, w3⟩ := hcols
  have hmnl := mnl_class hm
  obtain ⟨-, n, x, U, L, hU, hL, g1, g2, g3, -, -⟩ := extract hm hspec ha (by simp [hmnl]) hc hsol hpoint ht
  obtain ⟨before, after, hst, hafter, rfl⟩ := ht'
  obtain ⟨hd, hsp, e1, e2, e3, c1, c2, c3, hcol⟩ := LR.built hm'
  have ha' : AltsOf m'.data m'.args.altIdCol alts := by rw [hd, e1, w1]; exact alts_of (w1 ▸ c1) ha
  obtain ⟨ids, hids⟩ : ∃ ids, AltsOf m'.data m'.args.obsIdCol ids :=
    ⟨npUnique (m'.data.colList m'.args.obsIdCol), npUnique_strict _, fun x => by rw [mem_npUnique, mem_colList]⟩
  obtain ⟨chosen', hc'⟩ : ∃ chosen', OneChoicePerObs m'.data m'.args.obsIdCol m'.args.choiceCol chosen' := by
    rw [hd, e2, e3]; exact choice_of c2 c3 (by rw [w2, w3]; exact hc)
  classical
  have hname : ∀ j (h : j < vars.length),
      m'.indVarNames[(fun j => m'.indVarNames.idxOf (.str (vars.getD j ""))) j]? = some (.str vars[j]) ∧
      ∀ i < (fun j => m'.indVarNames.idxOf (.str (vars.getD j ""))) j, m'.indVarNames[i]? ≠ some (.str vars[j]) := by
    intro j h
    have hv : vars.getD j "" = vars[j] := by simp [h]
    have hmem := hnames _ (List.getElem_mem h)
    have hlt := List.idxOf_lt_length_iff.2 hmem
    simp only [hv]
    refine ⟨by rw [List.getElem?_eq_getElem hlt, List.getElem_idxOf], fun i hi he => ?_⟩
    obtain ⟨hi', e⟩ := List.getElem?_eq_some_iff.1 he
    have := List.not_of_lt_findIdx hi
    simp [e] at this
  obtain ⟨mixCol, k, j, d, s₀, x', labels, H, h1, h2, h3, h4, rfl, h6, h7, h8, hstat, -, hmax, -⟩ :=
    mixed_fit_report_partial g hm' hvars (hsp.trans hspec') hkeys hnm ha' hids hc' hname hsol' label' sf' before after
      args' st hpoint' hst hafter
  have hdf := hmax hmin
  obtain ⟨p, q, a1, a2, a3, a4, a5, a6⟩ := hU x
  rw [hmnl] at a1 a2 a3 a6
  obtain ⟨β', b1, b2, b3⟩ := pad (columns_sublist alts hsub) p.index a4
  have hes : (tableOf m' ids).equalShares = (⟨df, a.obsIdCol, a.choiceCol, []⟩ : LongData).equalShares := by
    unfold tableOf
    rw [hd, e2, e3, eq_shares_df c2 c3, w2, w3]
    rfl
  have g3' := hstat.rhoSq
  rw [hes] at g3'
  refine better hc g1 g2 g3 hstat.logLik hstat.llf g3' ?_
  refine le_trans ?_ (hdf (Fin.addCases (fun i => β'.get (Fin.cast b1.symm i)) fun _ => 0))
  have hθ : List.ofFn (fun i : Fin (specColumns alts s').length => β'.get (Fin.cast b1.symm i)) = β' := by
    refine List.ext_getElem (by simp [b1]) fun i h h' => by simp
  unfold LongData.simLogLik LongData.personLog drawnUtility mixedUtility
  simp only [Fin.addCases_left, Fin.addCases_right, hθ, no_spread, average_const h3]
  have hsum := sum_of c1 c2 c3 alts (by rw [← hspec']; exact hcol) (fun _ v => v) β'
  rw [← hspec', ← hd, w1, w2, w3] at hsum
  have hpp := people_sum (mix := mixCol) hc' (fun r => (tableOf m' ids).prob
    (fun r => rowIndex m'.data m'.args.altIdCol (specColumns alts s') β' r) r) fun r => clipped_pos _ _ r
  have hll : ll df a.obsIdCol a.choiceCol (U x) = ∑ r, m'.data.val m'.args.choiceCol r *
      Real.log ((tableOf m' ids).prob (fun r => rowIndex m'.data m'.args.altIdCol (specColumns alts s') β' r) r) := by
    unfold LongData.prob tableOf
    simp only [e1, e2, e3, w1, w2, w3]
    refine Eq.trans ?_ hsum.symm
    unfold ll
    have : U x = fun r => callersIndex df a.altIdCol (specColumns alts s') β' r := by
      funext r
      rw [a6 r]
      symm
      unfold callersIndex rowIndex
      exact b3 fun c => c.value ⟨df.columns, df.numRows, fun c r =>
        if c = "intercept" ∧ "intercept" ∉ df.columns then 1 else df.val c r⟩ a.altIdCol r
    rw [this]
  have hsq : ∑ i : Fin ((specColumns alts s').length + j), (Fin.addCases (fun i => β'.get (Fin.cast b1.symm i))
      (fun _ => (0 : ℝ)) i) ^ 2 = ∑ k, x k ^ 2 := by
    rw [Fin.sum_univ_add]
    simp only [Fin.addCases_left, Fin.addCases_right]
    rw [ofFn_sq, ofFn_sq x, hθ, a5, a2.2 (.inl rfl), a3.2 (.inl rfl), b2]
    simp
  rw [hL, hridge, hll, hsq, ← hpp]
  exact le_refl _

namespace LR

/-- The index of the rows of the model's table is that of the caller's. -/
theorem index_of {df : Frame ℝ} {s : List (String × SpecVal ℝ)} {alt : String} (halt : alt ∈ df.columns) (alts : List ℝ)
    (hcol : ∀ c ∈ (encodeAll s).map Prod.fst, c ∈ (addIntercept (encodeAll s) df).columns) (β : List ℝ)
    (r : Fin (addIntercept (encodeAll s) df).numRows) :
    ∃ r', rowIndex (addIntercept (encodeAll s) df) alt (specColumns alts s) β r =
      callersIndex df alt (specColumns alts s) β r' := by
  have key : ∀ (D : Frame ℝ) (e : D.numRows = df.numRows) (_ : ∀ r, D.val alt r = df.val alt (Fin.cast e r))
      (_ : ∀ c ∈ specColumns alts s, ∀ r, D.val (var c) r =
        if var c = "intercept" ∧ "intercept" ∉ df.columns then 1 else df.val (var c) (Fin.cast e r)) (r : Fin D.numRows),
      ∃ r', rowIndex D alt (specColumns alts s) β r = callersIndex df alt (specColumns alts s) β r' := by
    intro D e h1 h2 r
    obtain ⟨dc, dn, dv⟩ := D
    dsimp only at e
    subst e
    simp only [Fin.cast_eq_self] at h1 h2
    refine ⟨r, ?_⟩
    unfold callersIndex rowIndex
    refine congrArg List.sum (List.map_congr_left fun p hp => ?_)
    have hv := h2 p.1 (List.of_mem_zip hp).1 r
    have ha : (if alt = "intercept" ∧ "intercept" ∉ df.columns then (1 : ℝ) else df.val alt r) = df.val alt r := by
      rw [if_neg]
      rintro ⟨e, h⟩
      exact h (e ▸ halt)
    obtain ⟨c, b⟩ := p
    cases c <;> simp only [ColDesc.value, var, ha, h1] at hv ⊢ <;> rw [hv] <;> rfl
  generalize hD : addIntercept (encodeAll s) df = D at hcol r ⊢
  rw [addIntercept_eq] at hD
  split_ifs at hD with hi
  · subst hD
    refine key (withIntercept df) rfl ?_ ?_ r
    · intro r
      simp [withIntercept, ne_intercept halt hi.2]
      rfl
    · intro c hc r
      by_cases e : var c = "intercept"
      · simp [withIntercept, e, hi.2]
      · simp [withIntercept, e]
        rfl
  · subst hD
    refine key df rfl (fun r => rfl) (fun c hc r => ?_) r
    rw [if_neg]
    · rfl
    · rintro ⟨e, h⟩
      exact h (e ▸ hcol _ (var_mem hc))

theorem lambda_limit : Filter.Tendsto (fun τ : ℝ => 1 / (1 + Real.exp (-τ))) Filter.atTop (nhds 1) := by
  have h := Real.tendsto_exp_neg_atTop_nhds_zero.const_add 1
  have := (tendsto_const_nhds (x := (1 : ℝ))).div h (by norm_num)
  rw [add_zero, div_one] at this
  exact this

variable {R O N : Type} [Fintype R] [Fintype N] [DecidableEq O] [DecidableEq N]

omit [Fintype N] in
theorem nestSum_limit (f : R → O) (g : R → N) (V : R → ℝ) (o : O) (m : N) :
    Filter.Tendsto (fun l : ℝ => nestSum f g V (fun _ => l) o m) (nhds 1) (nhds (nestSum f g V (fun _ => 1) o m)) := by
  unfold nestSum
  refine tendsto_finsetSum _ fun s _ => ?_
  exact (Real.continuous_exp.tendsto _).comp (tendsto_const_nhds.div Filter.tendsto_id one_ne_zero)

omit [Fintype N] in
theorem nestSum_pos' (f : R → O) (g : R → N) (V : R → ℝ) {o : O} {m : N} (h : (nestRows f g o m).Nonempty) :
    0 < nestSum f g V (fun _ => 1) o m :=
  Finset.sum_pos (fun _ _ => Real.exp_pos _) h

/-- As all nest coefficients tend to one, the nested logit probabilities tend to those of the logit model. -/
theorem nested_limit (f : R → O) (g : R → N) (V : R → ℝ) (r : R) :
    Filter.Tendsto (fun l : ℝ => nestedProb f g V (fun _ => l) r) (nhds 1) (nhds (logitProb f V r)) := by
  have hr : (nestRows f g (f r) (g r)).Nonempty := ⟨r, by simp [nestRows]⟩
  have hne : ∀ m ∈ availNests f g (f r), (nestRows f g (f r) m).Nonempty := fun m hm => by
    simpa [availNests] using hm
  have hpos := nestSum_pos' f g V hr
  have hpow : ∀ m, (nestRows f g (f r) m).Nonempty →
      Filter.Tendsto (fun l : ℝ => nestSum f g V (fun _ => l) (f r) m ^ l) (nhds 1)
        (nhds (nestSum f g V (fun _ => 1) (f r) m)) := by
    intro m hm
    have := (nestSum_limit f g V (f r) m).rpow Filter.tendsto_id (Or.inl (nestSum_pos' f g V hm).ne')
    simpa using this
  have hden : 0 < ∑ m ∈ availNests f g (f r), nestSum f g V (fun _ => 1) (f r) m :=
    Finset.sum_pos (fun m hm => nestSum_pos' f g V (hne m hm)) ⟨g r, by simpa [availNests] using hr⟩
  have h := ((hpow (g r) hr).div (tendsto_finsetSum _ fun m hm => hpow m (hne m hm)) hden.ne').mul
    (((Real.continuous_exp.tendsto _).comp ((tendsto_const_nhds (x := V r)).div Filter.tendsto_id one_ne_zero)).div
      (nestSum_limit f g V (f r) (g r)) hpos.ne')
  have e : nestSum f g V (fun _ => 1) (f r) (g r) / (∑ m ∈ availNests f g (f r), nestSum f g V (fun _ => 1) (f r) m) *
      (Real.exp (V r / 1) / nestSum f g V (fun _ => 1) (f r) (g r)) = logitProb f V r := by
    have hby : ∑ s ∈ rowsOf f (f r), Real.exp (V s) =
        ∑ m ∈ availNests f g (f r), ∑ s ∈ nestRows f g (f r) m, Real.exp (V s) := by
      rw [← Finset.sum_fiberwise_of_maps_to (g := g) (t := availNests f g (f r)) fun s hs => ?_]
      · simp only [rowsOf, Finset.filter_filter, nestRows]
      · simp only [availNests, Finset.mem_filter, Finset.mem_univ, true_and]
        exact ⟨s, by simpa [nestRows] using (by simpa [rowsOf] using hs : f s = f r)⟩
    rw [logitProb, hby]
    have : ∀ m, nestSum f g V (fun _ => 1) (f r) m = ∑ s ∈ nestRows f g (f r) m, Real.exp (V s) := fun m => by
      simp [nestSum]
    rw [← Finset.sum_congr rfl fun m _ => this m, div_one]
    field_simp
  rw [← e]
  exact h

end LR

open LR in
/-- The nested logit model fits at least as well as the multinomial logit model of the same variables, or of fewer of
them, with any nests and any ridge penalty, if the utilities of the multinomial logit fit are not extreme. -/
theorem nests_fit_better {env env' : Env ℝ} {ty : String} {df : Frame ℝ} {a a' : ModelArgs ℝ} {m m' : ChoiceModel ℝ}
    {s s' : List (String × SpecVal ℝ)} (hm : createChoiceModel env "MNL" df a = .ok m)
    (hspec : a.specification = encodeAll s) (hm' : createChoiceModel env' ty df a' = .ok m') (hty : m'.cls = .nested)
    (hspec' : a'.specification = encodeAll s') (hsub : s.Sublist s') {ns : List (String × List ℝ)}
    (hns : a'.nestSpec = some (encodeNests ns)) (hk : (ns.map Prod.fst).Nodup)
    (hcols : a'.altIdCol = a.altIdCol ∧ a'.obsIdCol = a.obsIdCol ∧ a'.choiceCol = a.choiceCol)
    {alts : List ℝ} (ha : AltsOf df a.altIdCol alts)
    {chosen : ℝ → Fin df.numRows} (hc : OneChoicePerObs df a.obsIdCol a.choiceCol chosen)
    {solver solver' : Solver} (hsol : FaithfulSolver solver) (hsol' : FaithfulSolver solver')
    (hmin : MinimisingSolver solver')
    {label label' : PyVal ℝ → String} {sf sf' : ℝ → ℝ} {args args' : FitArgs}
    (hpoint : args.justPoint = false) (hpoint' : args'.justPoint = false) (hridge : args'.ridge = args.ridge)
    {t t' : FitAttrs} (ht : HoldsResultsOf label sf m (logitFitCall solver m args) t)
    (ht' : HoldsResultsOf label' sf' m' (nestedFitCall solver' m' ns args') t')
    (hmod : ∀ β, t.params.map Series.values = some β → ∀ r,
      |callersIndex df a.altIdCol (specColumns alts s) β r| ≤ 700) :
    FitsAtLeastAsWell t t' := by
  obtain ⟨w1, w2, w3⟩ := hcols
  have hmnl := mnl_class hm
  obtain ⟨-, n, x, U, L, hU, hL, g1, g2, -, g4, -⟩ := extract hm hspec ha (by simp [hmnl]) hc hsol hpoint ht
  obtain ⟨before, after, hst, hafter, rfl⟩ := ht'
  obtain ⟨hd, hsp, e1, e2, e3, c1, c2, c3, hcol⟩ := LR.built hm'
  have ha' : AltsOf m'.data m'.args.altIdCol alts := by rw [hd, e1, w1]; exact alts_of (w1 ▸ c1) ha
  obtain ⟨ids, hids⟩ : ∃ ids, AltsOf m'.data m'.args.obsIdCol ids :=
    ⟨npUnique (m'.data.colList m'.args.obsIdCol), npUnique_strict _, fun x => by rw [mem_npUnique, mem_colList]⟩
  obtain ⟨chosen', hc'⟩ : ∃ chosen', OneChoicePerObs m'.data m'.args.obsIdCol m'.args.choiceCol chosen' := by
    rw [hd, e2, e3]; exact choice_of c2 c3 (by rw [w2, w3]; exact hc)
  obtain ⟨-, g, -, hgi, -⟩ := built_nests hm' hty hns hk
  obtain ⟨k, x', labels, con, H, rfl, -, -, -, hstat, -, hmax, -⟩ :=
    nested_fit_report_partial hm' hty hns hk (hsp.trans hspec') ha' hids hc' (fun r => (hgi r (g r)).1 rfl) hsol' label' sf'
      before after args' hpoint' hst hafter
  obtain ⟨p, q, a1, a2, a3, a4, a5, a6⟩ := hU x
  rw [hmnl] at a1 a2 a3 a6
  obtain ⟨β', b1, b2, b3⟩ := pad (columns_sublist alts hsub) p.index a4
  have hθ : List.ofFn (fun i : Fin (specColumns alts s').length => β'.get (Fin.cast b1.symm i)) = β' := by
    refine List.ext_getElem (by simp [b1]) fun i h h' => by simp
  have hidx : List.ofFn x = p.index := by rw [a5, a2.2 (.inl rfl), a3.2 (.inl rfl)]; rfl
  have hm1 := hmod _ g4
  rw [hidx] at hm1
  have hsame : ∀ r, callersIndex df a.altIdCol (specColumns alts s') β' r =
      callersIndex df a.altIdCol (specColumns alts s) p.index r := by
    intro r
    unfold callersIndex rowIndex
    exact b3 fun c => c.value ⟨df.columns, df.numRows, fun c r =>
      if c = "intercept" ∧ "intercept" ∉ df.columns then 1 else df.val c r⟩ a.altIdCol r
  refine ⟨_, _, g2, hstat.llf, g1, hstat.logLik, ?_⟩
  set V : (Fin (specColumns alts s').length → ℝ) → Fin m'.data.numRows → ℝ :=
    fun β r => rowIndex m'.data m'.args.altIdCol (specColumns alts s') (List.ofFn β) r with hVdef
  set v : Fin m'.data.numRows → ℝ := fun r => rowIndex m'.data m'.args.altIdCol (specColumns alts s') β' r with hv
  have hbound : ∀ r, |v r| ≤ 700 := by
    intro r
    have key : ∀ (sp : List (String × PyVal ℝ)) (D : Frame ℝ) (_ : sp = encodeAll s') (_ : D = addIntercept sp df)
        (_ : ∀ c ∈ sp.map Prod.fst, c ∈ (addIntercept sp df).columns) (r : Fin D.numRows),
        ∃ r', rowIndex D a.altIdCol (specColumns alts s') β' r =
          callersIndex df a.altIdCol (specColumns alts s') β' r' := by
      rintro sp D rfl rfl h r
      exact index_of (w1 ▸ c1) alts h β' r
    obtain ⟨r', hr'⟩ := key _ _ hspec' hd hcol r
    simp only [hv, e1, w1, hr', hsame]
    exact hm1 r'
  let θ : ℝ → Fin (ns.length + (specColumns alts s').length) → ℝ := fun τ =>
    Fin.addCases (fun _ => τ) fun i => β'.get (Fin.cast b1.symm i)
  have hlim : Filter.Tendsto (fun τ => (tableOf m' ids).nestedLogLik args'.ridge g V (θ τ)) Filter.atTop
      (nhds (∑ r, m'.data.val m'.args.choiceCol r * Real.log (logitProb (m'.data.val m'.args.obsIdCol) v r) -
        args'.ridge.getD 0 * (∑ _q : Fin ns.length, ((1 : ℝ) - 1) ^ 2 + (β'.map (· ^ 2)).sum))) := by
    have hlam : ∀ τ, nestLambda (θ τ) = fun _ : Fin ns.length => 1 / (1 + Real.exp (-τ)) := by
      intro τ; funext q; simp [nestLambda, θ]
    have hip : ∀ τ, indexPart (θ τ) = fun i => β'.get (Fin.cast b1.symm i) := by
      intro τ; funext i; simp [indexPart, θ]
    have hVv : V (fun i => β'.get (Fin.cast b1.symm i)) = v := by
      funext r; simp only [hVdef, hv, hθ]
    have hpen : ∑ i : Fin (specColumns alts s').length, β'.get (Fin.cast b1.symm i) ^ 2 = (β'.map (· ^ 2)).sum := by
      rw [ofFn_sq fun i : Fin (specColumns alts s').length => β'.get (Fin.cast b1.symm i), hθ]
    unfold LongData.nestedLogLik LongData.nestedProb
    simp only [hlam, hip, hVv, hpen]
    refine Filter.Tendsto.sub (tendsto_finsetSum _ fun r _ => Filter.Tendsto.const_mul _ ?_)
      (Filter.Tendsto.const_mul _ (Filter.Tendsto.add_const _ (tendsto_finsetSum _ fun q _ => ?_)))
    · have hp : 0 < logitProb (m'.data.val m'.args.obsIdCol) v r := logit_pos _ _ _
      exact (Real.continuousAt_log hp.ne').tendsto.comp ((nested_limit _ g v r).comp lambda_limit)
    · exact (lambda_limit.sub_const 1).pow 2
  have hle := le_of_tendsto' hlim fun τ => hmax hmin (θ τ)
  have hsum := sum_of c1 c2 c3 alts (by rw [← hspec']; exact hcol) (fun _ v => v) β'
  rw [← hspec', ← hd, w1, w2, w3] at hsum
  have hll : ll df a.obsIdCol a.choiceCol (U x) =
      ∑ r, m'.data.val m'.args.choiceCol r * Real.log (logitProb (m'.data.val m'.args.obsIdCol) v r) := by
    have hcl : ∀ r, logitProb (m'.data.val m'.args.obsIdCol) v r = clippedLogit (m'.data.val m'.args.obsIdCol) v r := by
      intro r
      unfold clippedLogit
      congr 1
      funext r
      obtain ⟨h, h'⟩ := abs_le.1 (hbound r)
      rw [clip700, min_eq_left (by linarith), max_eq_right (by linarith)]
    simp only [hcl]
    simp only [hv, e1, e2, e3, w1, w2, w3]
    refine Eq.trans ?_ hsum.symm
    unfold ll
    have : U x = fun r => callersIndex df a.altIdCol (specColumns alts s') β' r := by
      funext r
      rw [a6 r, hsame r]
      rfl
    rw [this]
  have hsq : (β'.map (· ^ 2)).sum = ∑ k, x k ^ 2 := by
    rw [ofFn_sq x, hidx, b2]
  have hz : ∑ _q : Fin ns.length, ((1 : ℝ) - 1) ^ 2 = 0 := by simp
  rw [hz, zero_add, hsq, ← hll, hridge, ← hL] at hle
  rw [hridge]
  linarith

/-! ## Concrete cases -/

namespace LR

/-- A model of a table with the columns "obs", "alt", "x" and "y", without names. -/
theorem exBuilt (env : Env ℝ) (henv : env.badCol = fun _ => false) {ty : String} {cls : ModelType}
    (hk : modelTypeToClass.lookup ty = some cls) (hcls : cls ≠ .nested ∧ cls ≠ .mixed) {L : Frame ℝ}
    (hL : L.columns = ["obs", "alt", "x", "y"])
    {alts : List ℝ} (ha : AltsOf L "alt" alts) (s : List (String × SpecVal ℝ)) (hvars : ∀ kv ∈ s, kv.1 ∈ L.columns)
    (hvalid : ∀ kv ∈ s, kv.2.ValidFor alts) (hne : specColumns alts s ≠ []) {A : ModelArgs ℝ} {iref sref : PyRef}
    (hA : A = { exLogitArgs with specification := encodeAll s, interceptRefPos := iref, shapeRefPos := sref })
    (hargs : argsFor cls A = A) (hi : cls = .mnl → iref = .none) (hs : cls = .asym → ∃ z, sref = .int z) :
    ∃ m, createChoiceModel env ty L A = .ok m ∧ m.cls = cls ∧ m.data = L ∧ m.args = A := by
  have hd := design_success env.fmt env.fmtList L s "alt" alts ha (by simp [hL]) hvars hvalid hne
  obtain ⟨d, hd'⟩ : ∃ d, createDesignMatrix env.fmt env.fmtList L (encodeAll s) "alt" none = .ok d := ⟨_, hd⟩
  have hint : addIntercept (encodeAll s) L = L := by
    have : "intercept" ∉ (encodeAll s).map Prod.fst := by
      intro h
      simp only [encodeAll, List.map_map, List.mem_map] at h
      obtain ⟨kv, h1, h2⟩ := h
      have := hvars kv h1
      rw [show kv.1 = "intercept" from h2, hL] at this
      simp at this
    rw [addIntercept_eq, if_neg fun h => this h.1]
  refine ⟨⟨cls, displayNameOf (classOf cls), L, d.1, d.2, A, none⟩, ?_, rfl, rfl, rfl⟩
  simp only [createChoiceModel, hk]
  rw [classInit_iff, hargs]
  subst hA
  refine ⟨by simpa [exLogitArgs, hcls.1, hcls.2] using ⟨hi, hs⟩, baseInit_ok.2 ⟨initChecks_ok.2 ?_, ?_⟩⟩
  · simp [exLogitArgs, hL, checkNamesAndRef, checkNestSpecArg]
  · beta_reduce
    simp only [hint]
    rw [initBuild_iff]
    refine ⟨?_, ?_, d, hd', ?_, rfl⟩
    · intro c hc
      simp only [encodeAll, List.map_map, List.mem_map] at hc
      obtain ⟨kv, h1, rfl⟩ := hc
      exact hvars kv h1
    · simp [henv]
    · simp [exLogitArgs]

/-- With ridge penalty 1, a global optimiser and starting values of zero, models get to results and store them. -/
theorem exHolds {env : Env ℝ} {ty : String} {df : Frame ℝ} {a : ModelArgs ℝ} {m : ChoiceModel ℝ}
    (hm : createChoiceModel env ty df a = .ok m) (hcls : m.cls = .mnl ∨ m.cls = .scobit ∨ m.cls = .uneven ∨ m.cls = .asym)
    {s : List (String × SpecVal ℝ)} (hspec : m.args.specification = encodeAll s) (hkeys : (s.map Prod.fst).Nodup)
    (hnm : m.args.names = none)
    {alts : List ℝ} (ha : AltsOf m.data m.args.altIdCol alts) (h2 : m.cls = .asym → 2 ≤ alts.length)
    (hc' : ∃ chosen, OneChoicePerObs m.data m.args.obsIdCol m.args.choiceCol chosen)
    (hasc : (m.data.colList m.args.obsIdCol).Pairwise (· ≤ ·)) (hrows : 0 < m.data.numRows)
    (hi : m.cls ≠ .mnl → m.args.interceptRefPos = .none ∨
      ∃ z : ℤ, m.args.interceptRefPos = .int z ∧ 0 ≤ z ∧ z < alts.length)
    (hs : m.cls = .asym → ∃ z : ℤ, m.args.shapeRefPos = .int z ∧ 0 ≤ z ∧ z < alts.length)
    (label : PyVal ℝ → String) (sf : ℝ → ℝ) :
    ∃ k t, HoldsResultsOf label sf m
      (logitFitCall exGlobal m ⟨⟨some (List.replicate k 0), none, none, none⟩, some 1, none, false⟩) t := by
  obtain ⟨chosen, hc⟩ := hc'
  refine ⟨totalParams m.cls ⟨alts.length, (specColumns alts s).length, 0, 0⟩ (m.args.interceptRefPos != .none), ?_⟩
  obtain ⟨h1, h3⟩ := penalised_fit_accepts hm (by rcases hcls with e | e | e | e <;> simp [e])
    (by rcases hcls with e | e | e | e <;> simp [e]) (by rcases hcls with e | e | e | e <;> simp [e]) hspec hkeys
    (by simp [hnm]) ha h2 hc exGlobal_finds ⟨⟨some (List.replicate (totalParams m.cls ⟨alts.length,
      (specColumns alts s).length, 0, 0⟩ (m.args.interceptRefPos != .none)) 0), none, none, none⟩, some 1, none, false⟩
    (by simp)
  have hst : ∀ x : List ℝ, StartsFrom m.cls ⟨alts.length, (specColumns alts s).length, 0, 0⟩ ⟨some x, none, none, none⟩ x := by
    intro x
    rcases hcls with e | e | e | e <;> rw [e]
    · exact .plain _ _ _ (.inl rfl)
    all_goals exact .shapeVector _ _ _ _ _ _ (by simp [HasShapes])
  obtain ⟨r, hr⟩ := h1.2 ⟨⟨_, hst _, by simp⟩, hasc, hrows, hi, hs, by simp⟩
  exact ⟨_, [], [], h3 r hr rfl label sf [], by simp, rfl⟩

theorem exChosen_facts : AltsOf exChosen "alt" [1, 2] ∧ OneChoicePerObs exChosen "obs" "y" (fun _ => (1 : Fin 2)) ∧
    (exChosen.colList "obs").Pairwise (· ≤ ·) := by
  refine ⟨⟨by simp, fun x => ⟨?_, ?_⟩⟩, ⟨?_, ?_, ?_⟩, by simp [exChosen, Frame.colList]⟩
  · intro hx
    rcases List.mem_cons.1 hx with rfl | hx
    · exact ⟨(0 : Fin 2), rfl⟩
    · rw [List.mem_singleton.1 hx]; exact ⟨(1 : Fin 2), rfl⟩
  · rintro ⟨r, rfl⟩
    change Fin 2 at r
    fin_cases r <;> simp [exChosen]
  all_goals
    intro r
    change Fin 2 at r
    fin_cases r <;> simp [exChosen]

end LR

open LR in
/-- Non-vacuity of `more_variables_fit_better`, `shapes_fit_better`, `intercepts_fit_better` and
`fits_beat_equal_shares`, and of `penalised_fit_accepts` (used in `exHolds`): on a table of one observation, with ridge
penalty 1, fits of a multinomial logit model of one variable, a scobit model of two variables, and a scobit model of two
variables with an outside intercept. -/
example (env : Env ℝ) (henv : env.badCol = fun _ => false) (label : PyVal ℝ → String) (sf : ℝ → ℝ) :
    ∃ m₁ m₂ m₃ m₄ k₁ k₂ k₃ k₄ t₁ t₂ t₃ t₄,
      let f := fun m k => logitFitCall exGlobal m ⟨⟨some (List.replicate k 0), none, none, none⟩, some 1, none, false⟩
      createChoiceModel env "MNL" exChosen exLogitArgs = .ok m₁ ∧ HoldsResultsOf label sf m₁ (f m₁ k₁) t₁ ∧
      createChoiceModel env "Scobit" exChosen exLogitArgs = .ok m₂ ∧ HoldsResultsOf label sf m₂ (f m₂ k₂) t₂ ∧
      createChoiceModel env "Scobit" exChosen { exLogitArgs with
        specification := encodeAll [("x", .allSame), ("alt", .allSame)] } = .ok m₃ ∧
      HoldsResultsOf label sf m₃ (f m₃ k₃) t₃ ∧
      createChoiceModel env "Scobit" exChosen { exLogitArgs with
        specification := encodeAll [("x", .allSame), ("alt", .allSame)], interceptRefPos := .int 1 } = .ok m₄ ∧
      HoldsResultsOf label sf m₄ (f m₄ k₄) t₄ ∧
      FitsAtLeastAsWell t₁ t₂ ∧ FitsAtLeastAsWell t₂ t₃ ∧ FitsAtLeastAsWell t₃ t₄ ∧
      ∃ L, t₁.llf = some L ∧ 0 ≤ 2 * (L - (⟨exChosen, "obs", "y", []⟩ : LongData).equalShares) := by
  obtain ⟨ha, hc, hasc⟩ := exChosen_facts
  have key : ∀ {ty : String} {cls : ModelType} (s : List (String × SpecVal ℝ)) (iref : PyRef),
      modelTypeToClass.lookup ty = some cls → (cls = .mnl ∨ cls = .scobit) →
      (s = [("x", .allSame)] ∨ s = [("x", .allSame), ("alt", .allSame)]) →
      (iref = .none ∨ cls = .scobit ∧ iref = .int 1) →
      ∃ m k t, createChoiceModel env ty exChosen { exLogitArgs with
          specification := encodeAll s, interceptRefPos := iref } = .ok m ∧ m.cls = cls ∧
        HoldsResultsOf label sf m
          (logitFitCall exGlobal m ⟨⟨some (List.replicate k 0), none, none, none⟩, some 1, none, false⟩) t := by
    intro ty cls s iref hk hcls hs hi
    obtain ⟨m, hm, e1, e2, e3⟩ := exBuilt env henv hk (by rcases hcls with rfl | rfl <;> simp) (L := exChosen) rfl ha s
      (by rcases hs with rfl | rfl <;> simp [exChosen]) (by rcases hs with rfl | rfl <;> simp [SpecVal.ValidFor])
      (by rcases hs with rfl | rfl <;> simp [specColumns, SpecVal.columns])
      (A := { exLogitArgs with specification := encodeAll s, interceptRefPos := iref }) (iref := iref) (sref := .none)
      rfl (by
        rcases hcls with rfl | rfl
        · rcases hi with rfl | ⟨h, -⟩
          · rfl
          · cases h
        · rfl)
      (by rintro rfl; rcases hi with h | ⟨h, -⟩; exacts [h, by cases h]) (by rcases hcls with rfl | rfl <;> simp)
    obtain ⟨k, t, ht⟩ := exHolds hm (by rw [e1]; rcases hcls with rfl | rfl <;> simp) (by rw [e3])
      (by rcases hs with rfl | rfl <;> simp) (by rw [e3]; rfl) (by rw [e2, e3]; exact ha)
      (by rw [e1]; rcases hcls with rfl | rfl <;> simp)
      (by rw [e2, e3]; exact ⟨_, hc⟩) (by rw [e2, e3]; exact hasc) (by rw [e2]; simp [exChosen])
      (by
        rw [e3]
        rcases hi with rfl | ⟨-, rfl⟩
        · exact fun _ => .inl rfl
        · exact fun _ => .inr ⟨1, rfl, by simp, by simp⟩)
      (by rw [e1]; rcases hcls with rfl | rfl <;> simp) label sf
    exact ⟨m, k, t, hm, e1, ht⟩
  obtain ⟨m₁, k₁, t₁, hm₁, c₁, ht₁⟩ := key (ty := "MNL") (cls := .mnl) [("x", .allSame)] .none (by decide) (.inl rfl)
    (.inl rfl) (.inl rfl)
  obtain ⟨m₂, k₂, t₂, hm₂, c₂, ht₂⟩ := key (ty := "Scobit") (cls := .scobit) [("x", .allSame)] .none (by decide)
    (.inr rfl) (.inl rfl) (.inl rfl)
  obtain ⟨m₃, k₃, t₃, hm₃, c₃, ht₃⟩ := key (ty := "Scobit") (cls := .scobit) [("x", .allSame), ("alt", .allSame)] .none
    (by decide) (.inr rfl) (.inr rfl) (.inl rfl)
  obtain ⟨m₄, k₄, t₄, hm₄, c₄, ht₄⟩ := key (ty := "Scobit") (cls := .scobit) [("x", .allSame), ("alt", .allSame)]
    (.int 1) (by decide) (.inr rfl) (.inr rfl) (.inr ⟨rfl, rfl⟩)
  obtain ⟨g1, g2⟩ := exGlobal_minimising
  refine ⟨m₁, m₂, m₃, m₄, k₁, k₂, k₃, k₄, t₁, t₂, t₃, t₄, hm₁, ht₁, hm₂, ht₂, hm₃, ht₃, hm₄, ht₄, ?_, ?_, ?_, ?_⟩
  · refine (shapes_fit_better hm₁ rfl hm₂ (.inl c₂) rfl (List.Sublist.refl _) ⟨rfl, rfl, rfl⟩ ha hc g1 g1 g2 ?_ ?_ ?_
      ht₁ ht₂).1 <;> rfl
  · refine (more_variables_fit_better hm₂ rfl hm₃ (s := [("x", .allSame)]) (by simp) ha (by simp [c₂]) hc g1 g1 g2 ?_ ?_
      ?_ ht₂ ht₃).1 <;> rfl
  · refine (intercepts_fit_better hm₃ rfl rfl hm₄ (List.Sublist.refl _) ha (by simp [c₃]) hc g1 g1 g2 ?_ ?_ ?_ ht₃
      ht₄).1 <;> rfl
  · obtain ⟨L, -, -, h1, -, -, -, h2, -⟩ := fits_beat_equal_shares hm₁ rfl ha (by simp [c₁]) hc g1 g2 rfl ht₁
    exact ⟨L, h1, h2⟩

end Pylogit
