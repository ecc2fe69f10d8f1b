import Verif.Spec.Reference
import Verif.Props.LikelihoodRatio
import Verif.Props.FitLogLik

/-!
# C132: the choice of the reference alternative does not matter
-/

namespace Pylogit

open Spec

namespace Reference

/-! ## Changing the reference -/

theorem lists_from (alts : List ℝ) (q : ℝ → ℝ) {z : ℕ} (hz : z < alts.length) :
    ListsOthers alts (.int z) (fun a => q a - q alts[z]) ((alts.eraseIdx z).map fun a => q a - q alts[z]) :=
  ⟨z, hz, rfl, rfl, by simp⟩

theorem two_sq {alts : List ℝ} {ref : PyRef} {q : ℝ → ℝ} {x : List ℝ} (h : ListsOthers alts ref q x)
    (h2 : alts.length = 2) {z : ℕ} (hz : z < alts.length) :
    ((((alts.eraseIdx z).map fun a => q a - q alts[z]).map (· ^ 2)).sum = (x.map (· ^ 2)).sum) := by
  obtain ⟨w, hw, -, rfl, h0⟩ := h
  match alts, h2 with
  | [a, b], _ =>
    simp only [List.length_cons, List.length_nil, Nat.zero_add, Nat.reduceAdd] at hz hw
    interval_cases z <;> interval_cases w <;> simp_all

theorem softmax_shift (alts : List ℝ) (s : ℝ → ℝ) (c a : ℝ) :
    Real.exp (s a - c) / (alts.map fun b => Real.exp (s b - c)).sum =
      Real.exp (s a) / (alts.map fun b => Real.exp (s b)).sum := by
  have h : (alts.map fun b => Real.exp (s b - c)).sum = (alts.map fun b => Real.exp (s b)).sum * Real.exp (-c) := by
    rw [← List.sum_map_mul_right]
    congr 1
    exact List.map_congr_left fun b _ => by rw [sub_eq_add_neg, Real.exp_add]
  rw [h, sub_eq_add_neg, Real.exp_add, mul_div_mul_right _ _ (Real.exp_ne_zero _)]

/-- Parameters measured from other reference alternatives. -/
theorem rebase {cls : ModelType} (hcls : cls ≠ .nested ∧ cls ≠ .mixed) {alts : List ℝ} {iref sref iref' sref' : PyRef}
    {p p₀ : ParamArrays} {q q₀ : AltParams} (h : HoldsFor cls alts iref sref p q)
    (hs : p.shapes = none ↔ cls = .mnl ∨ cls = .cloglog)
    (hi : p.intercepts = none ↔ cls = .mnl ∨ iref = .none ∨ alts.length = 1)
    (h₀ : HoldsFor cls alts iref' sref' p₀ q₀)
    (hi₀ : p₀.intercepts = none ↔ cls = .mnl ∨ iref' = .none ∨ alts.length = 1)
    (href : iref = .none ↔ iref' = .none) :
    ∃ (p' : ParamArrays) (q' : AltParams) (κ : ℝ), HoldsFor cls alts iref' sref' p' q' ∧
      (p'.shapes = none ↔ cls = .mnl ∨ cls = .cloglog) ∧
      (p'.intercepts = none ↔ cls = .mnl ∨ iref' = .none ∨ alts.length = 1) ∧ p'.index = p.index ∧
      (κ = 0 ∨ ∃ b ∈ alts, κ = q.icpt b) ∧
      (∀ a v, rowUtility cls alts q' a v = rowUtility cls alts q a v - κ) ∧
      (alts.length = 2 → ((p'.shapes.getD []).map (· ^ 2)).sum = ((p.shapes.getD []).map (· ^ 2)).sum ∧
        ((p'.intercepts.getD []).map (· ^ 2)).sum = ((p.intercepts.getD []).map (· ^ 2)).sum) := by
  -- the shapes
  obtain ⟨sh, f, a1, a2, a3, a4, a5⟩ : ∃ (sh : Option (List ℝ)) (f : ℝ → ℝ),
      (cls = .scobit ∨ cls = .uneven → sh = some (alts.map f)) ∧
      (cls = .asym → ∃ x, sh = some x ∧ ListsOthers alts sref' f x) ∧
      (sh = none ↔ cls = .mnl ∨ cls = .cloglog) ∧
      (∀ ic a v, rowUtility cls alts ⟨ic, f⟩ a v = rowUtility cls alts ⟨ic, q.shape⟩ a v) ∧
      (alts.length = 2 → ((sh.getD []).map (· ^ 2)).sum = ((p.shapes.getD []).map (· ^ 2)).sum) := by
    by_cases hasym : cls = .asym
    · obtain ⟨x, e, hx⟩ := h.eta hasym
      obtain ⟨x₀, -, z, hz, rfl, -, -⟩ := h₀.eta hasym
      refine ⟨some ((alts.eraseIdx z).map fun a => q.shape a - q.shape alts[z]), fun a => q.shape a - q.shape alts[z],
        by simp [hasym], fun _ => ⟨_, rfl, lists_from alts q.shape hz⟩, by simp [hasym], ?_, ?_⟩
      · intro ic a v
        subst hasym
        simp only [rowUtility, softmax_shift]
      · intro h2
        rw [e]
        exact two_sq hx h2 hz
    · exact ⟨p.shapes, q.shape, h.shape, fun e => absurd e hasym, hs, fun _ _ _ => rfl, fun _ => rfl⟩
  -- the intercepts
  cases e : p.intercepts with
  | none =>
    have hn := hi.1 e
    refine ⟨{ p with shapes := sh }, ⟨q.icpt, f⟩, 0, ⟨fun _ => h.noIcpt e, ?_, a1, a2⟩, a3, ?_, rfl, .inl rfl, ?_, ?_⟩
    · intro x hx
      have hx : p.intercepts = some x := hx
      rw [e] at hx; cases hx
    · show p.intercepts = none ↔ _
      rw [hi, href]
    · intro a v
      rw [a4, sub_zero]
    · intro h2
      refine ⟨a5 h2, ?_⟩
      show ((p.intercepts.getD []).map (· ^ 2)).sum = _
      rw [e]
  | some x =>
    have hn : ¬ (cls = .mnl ∨ iref = .none ∨ alts.length = 1) := by rw [← hi, e]; simp
    have hn' : ¬ (cls = .mnl ∨ iref' = .none ∨ alts.length = 1) := by rw [← href]; exact hn
    obtain ⟨x₀, e₀⟩ : ∃ x₀, p₀.intercepts = some x₀ := by
      cases e₀ : p₀.intercepts with
      | none => exact absurd (hi₀.1 e₀) hn'
      | some x₀ => exact ⟨x₀, rfl⟩
    obtain ⟨z, hz, rfl, -, -⟩ := h₀.icpt x₀ e₀
    have hx := h.icpt x e
    refine ⟨⟨p.index, some ((alts.eraseIdx z).map fun a => q.icpt a - q.icpt alts[z]), sh, p.nests⟩,
      ⟨fun a => q.icpt a - q.icpt alts[z], f⟩, q.icpt alts[z], ⟨by simp, ?_, a1, a2⟩, a3, ?_, rfl,
      .inr ⟨_, List.getElem_mem hz, rfl⟩, ?_, ?_⟩
    · intro y hy
      cases hy
      exact lists_from alts q.icpt hz
    · exact ⟨(by simp), fun e => absurd e hn'⟩
    · intro a v
      rw [a4]
      cases cls with
      | mnl => simp at hn
      | nested => simp at hcls
      | mixed => simp at hcls
      | cloglog => simp only [rowUtility]; ring
      | scobit => simp only [rowUtility]; ring
      | uneven => simp only [rowUtility]; ring
      | asym => simp only [rowUtility]; ring
    · intro h2
      exact ⟨a5 h2, two_sq hx h2 hz⟩

theorem clip_id {x : ℝ} (h : |x| < 700) : clip700 x = x := by
  obtain ⟨h1, h2⟩ := abs_lt.1 h
  unfold clip700
  rw [min_eq_left h2.le, max_eq_right h1.le]

theorem shifted {R O : Type} [Fintype R] [DecidableEq O] (f : R → O) (u : R → ℝ) (κ : ℝ) (h : ∀ r, |u r| < 700)
    (h' : ∀ r, |u r - κ| < 700) : clippedLogit f (fun r => u r - κ) = clippedLogit f u := by
  funext r
  unfold clippedLogit logitProb
  simp only [clip_id (h _), clip_id (h' _)]
  simp only [sub_eq_add_neg, Real.exp_add]
  rw [← Finset.sum_mul, mul_div_mul_right _ _ (Real.exp_ne_zero _)]

/-- Utilities measured from elsewhere differ by a constant. -/
theorem utility_from (cls : ModelType) (alts : List ℝ) (q : AltParams) (b c a v : ℝ) :
    rowUtility cls alts (q.measuredFrom cls b c) a v =
      rowUtility cls alts q a v - if cls = .mnl ∨ cls = .nested ∨ cls = .mixed then 0 else q.icpt b := by
  cases cls with
  | mnl => simp [rowUtility]
  | nested => simp [rowUtility]
  | mixed => simp [rowUtility]
  | cloglog => simp [rowUtility, AltParams.measuredFrom]; ring
  | scobit => simp [rowUtility, AltParams.measuredFrom]; ring
  | uneven => simp [rowUtility, AltParams.measuredFrom]; ring
  | asym =>
    have e : (q.measuredFrom .asym b c).shape = fun a => q.shape a - q.shape c := by
      funext a
      simp [AltParams.measuredFrom]
    simp only [rowUtility, e, softmax_shift]
    simp [AltParams.measuredFrom]
    ring

theorem probs_from {R : Type} [Fintype R] (f : R → ℝ) (cls : ModelType) (alts : List ℝ) (q : AltParams) (b c : ℝ)
    (x v : R → ℝ) (h : ∀ r, |rowUtility cls alts q (x r) (v r)| < 700)
    (h' : ∀ r, |rowUtility cls alts q (x r) (v r) - q.icpt b| < 700) :
    clippedLogit f (fun r => rowUtility cls alts (q.measuredFrom cls b c) (x r) (v r)) =
      clippedLogit f fun r => rowUtility cls alts q (x r) (v r) := by
  simp only [utility_from]
  refine shifted f _ _ h fun r => ?_
  split_ifs
  · rw [sub_zero]; exact h r
  · exact h' r

/-- Two models whose arguments agree on everything but references and names. -/
theorem same_class {env env' : Env ℝ} {ty : String} {df df' : Frame ℝ} {a : ModelArgs ℝ} {m m' : ChoiceModel ℝ}
    {iref sref : PyRef} {inm snm : Option (List String)} (href : a.interceptRefPos = .none ↔ iref = .none)
    (hm : createChoiceModel env ty df a = .ok m)
    (hm' : createChoiceModel env' ty df' { a with
      interceptRefPos := iref, interceptNames := inm, shapeRefPos := sref, shapeNames := snm } = .ok m') :
    m'.cls = m.cls ∧ (m.args.interceptRefPos = .none ↔ m'.args.interceptRefPos = .none) := by
  unfold createChoiceModel at hm hm'
  split at hm
  · cases hm
  · rename_i cls e
    rw [e] at hm'
    obtain ⟨-, h⟩ := classInit_iff.1 hm
    obtain ⟨-, h'⟩ := classInit_iff.1 hm'
    obtain ⟨c, -, -, b⟩ := baseInit_attrs h
    obtain ⟨c', -, -, b'⟩ := baseInit_attrs h'
    rw [b, b', c, c']
    cases cls <;> simp [argsFor, href]

theorem one_way {env env' : Env ℝ} {ty : String} {df : Frame ℝ} {a : ModelArgs ℝ} {m m' : ChoiceModel ℝ}
    {s : List (String × SpecVal ℝ)} {iref sref : PyRef} {inm snm : Option (List String)}
    (hm : createChoiceModel env ty df a = .ok m) (hspec : a.specification = encodeAll s)
    (hm' : createChoiceModel env' ty df { a with
      interceptRefPos := iref, interceptNames := inm, shapeRefPos := sref, shapeNames := snm } = .ok m')
    (href : a.interceptRefPos = .none ↔ iref = .none)
    {alts : List ℝ} (ha : AltsOf df a.altIdCol alts) (h2 : m.cls = .asym → 2 ≤ alts.length)
    {chosen : ℝ → Fin df.numRows} (hc : OneChoicePerObs df a.obsIdCol a.choiceCol chosen)
    {solver solver' : Solver} (hsol : FaithfulSolver solver) (hsol' : FaithfulSolver solver')
    (hmin : MinimisingSolver solver')
    {label label' : PyVal ℝ → String} {sf sf' : ℝ → ℝ} {args args' : FitArgs} (hpoint : args.justPoint = false)
    (hpoint' : args'.justPoint = false) (hridge : args'.ridge = args.ridge)
    (hpen : args.ridge = none ∨ alts.length = 2)
    {t t' : FitAttrs} (ht : HoldsResultsOf label sf m (logitFitCall solver m args) t)
    (ht' : HoldsResultsOf label' sf' m' (logitFitCall solver' m' args') t')
    (hclip : FarFromClipping m df alts (specColumns alts s) t) :
    FitsAtLeastAsWell t t' ∧ RhoAtLeast t t' := by
  obtain ⟨k1, k2⟩ := same_class href hm hm'
  have halt : m.args.altIdCol = a.altIdCol := (LR.built hm).2.2.1
  obtain ⟨hcls, n, x, U, L, hU, hL, g1, g2, g3, g4, -⟩ := LR.extract hm hspec ha h2 hc hsol hpoint ht
  obtain ⟨-, n', x', U', L', hU', -, g1', g2', g3', -, hmax⟩ :=
    LR.extract hm' hspec ha (by rw [k1]; exact h2) hc hsol' hpoint' ht'
  refine LR.better hc g1 g2 g3 g1' g2' g3' ?_
  obtain ⟨p, q, c1, c2, c3, c4, c5, c6⟩ := hU x
  rw [k1] at hU'
  obtain ⟨p₀, q₀, d1, d2, d3, d4, d5, d6⟩ := hU' x'
  obtain ⟨p', q', κ, e1, e2, e3, e4, e5, e6, e7⟩ := rebase hcls c1 c2 c3 d1 d3 k2
  obtain ⟨y, y1, y2⟩ := LR.realise hcls (fun r => (ha.mem _).2 ⟨r, rfl⟩) hU' e1 e2 e3 (by rw [e4]; exact c4)
  refine le_trans ?_ (hmax hmin y)
  have hmem : ∀ r, df.val a.altIdCol r ∈ alts := fun r => (ha.mem _).2 ⟨r, rfl⟩
  have hfar := hclip _ p q g4 ⟨c1, c2, c3, c4, c5⟩
  rw [halt] at hfar
  have hfar : ∀ r, ∀ b ∈ alts, |U x r - q.icpt b| < 700 := fun r b hb => by rw [c6 r]; exact hfar r b hb
  have hzero : ∀ r, |U x r| < 700 := by
    intro r
    cases e : p.intercepts with
    | none =>
      have := hfar r _ (hmem r)
      rwa [c1.noIcpt e _ (hmem r), sub_zero] at this
    | some v =>
      obtain ⟨z, hz, -, -, h0⟩ := c1.icpt v e
      have := hfar r _ (List.getElem_mem hz)
      rwa [h0, sub_zero] at this
  have hu : U' y = fun r => U x r - κ := by
    funext r
    rw [y2 r, c6 r, e6, e4]
  have hll : LR.ll df a.obsIdCol a.choiceCol (U' y) = LR.ll df a.obsIdCol a.choiceCol (U x) := by
    unfold LR.ll
    rw [hu, shifted _ _ _ hzero]
    intro r
    rcases e5 with rfl | ⟨b, hb, rfl⟩
    · rw [sub_zero]; exact hzero r
    · exact hfar r b hb
  have hsq : args.ridge.getD 0 * ∑ k, y k ^ 2 = args.ridge.getD 0 * ∑ k, x k ^ 2 := by
    rcases hpen with e | e
    · simp [e]
    · rw [LR.ofFn_sq, LR.ofFn_sq, y1, c5]
      simp only [List.map_append, List.sum_append, e7 e, e4]
  rw [hL, hridge]
  show _ ≤ LR.ll df a.obsIdCol a.choiceCol (U' y) - _
  rw [hsq, hll]

end Reference

open Reference in
/-- **C132** (log-likelihood). Let two models of one type of the same table differ only in the alternative without an
outside intercept, in the alternative without a shape, and in the names of the intercepts and shapes. Measure every
intercept from that of another alternative, and in the asymmetric model every shape from that of another one, and keep
the coefficients. Then the two models have the same log-likelihood, unless a utility is clipped. -/
theorem logLik_ignores_reference_alternative {env env' : Env ℝ} {ty : String} {df : Frame ℝ} {a : ModelArgs ℝ}
    {m m' : ChoiceModel ℝ} {s : List (String × SpecVal ℝ)} {iref sref : PyRef} {inm snm : Option (List String)}
    (hm : createChoiceModel env ty df a = .ok m) (hspec : a.specification = encodeAll s)
    (hm' : createChoiceModel env' ty df { a with
      interceptRefPos := iref, interceptNames := inm, shapeRefPos := sref, shapeNames := snm } = .ok m')
    (hcls : m.cls ≠ .nested ∧ m.cls ≠ .mixed)
    {alts : List ℝ} (ha : AltsOf m.data a.altIdCol alts) (h2 : m.cls = .asym → 2 ≤ alts.length)
    {p p' : ParamArrays} {q : AltParams} {b c : ℝ}
    (hp : HoldsFor m.cls alts m.args.interceptRefPos m.args.shapeRefPos p q)
    (hp' : HoldsFor m.cls alts m'.args.interceptRefPos m'.args.shapeRefPos p' (q.measuredFrom m.cls b c))
    (hidx : p'.index = p.index) (hlen : p.index.length = (specColumns alts s).length)
    (hclip :
      let u := fun r => rowUtility m.cls alts q (m.data.val a.altIdCol r)
        (rowIndex m.data a.altIdCol (specColumns alts s) p.index r)
      ∀ r, |u r| < 700 ∧ |u r - q.icpt b| < 700) :
    (fitInputs m' m'.data).logLik id m'.cls m'.args.interceptRefPos m'.args.shapeRefPos p' =
      (fitInputs m m.data).logLik id m.cls m.args.interceptRefPos m.args.shapeRefPos p := by
  obtain ⟨d1, d2, d3, d4, d5, -⟩ := LR.built hm
  obtain ⟨d1', d2', d3', d4', d5', -⟩ := LR.built hm'
  dsimp only at d1' d2' d3' d4' d5'
  have k1 : m'.cls = m.cls := by
    have h1 := hm
    have h2 := hm'
    unfold createChoiceModel at h1 h2
    split at h1
    · cases h1
    · rename_i cls e
      rw [e] at h2
      obtain ⟨-, h⟩ := classInit_iff.1 h1
      obtain ⟨-, h'⟩ := classInit_iff.1 h2
      exact (baseInit_attrs h').1.trans (baseInit_attrs h).1.symm
  have hdata : m'.data = m.data := d1'.trans d1.symm
  rw [fit_maximises_table_logLik hm hcls (d2.trans hspec) (by rw [d3]; exact ha) h2 hp hlen,
    fit_maximises_table_logLik hm' (by rw [k1]; exact hcls) (d2'.trans hspec) (by rw [hdata, d3']; exact ha)
      (by rw [k1]; exact h2) (by rw [k1]; exact hp') (by rw [hidx]; exact hlen)]
  rw [d3, d4, d5, d3', d4', d5', k1, hidx]
  have key := probs_from (m.data.val a.obsIdCol) m.cls alts q b c (m.data.val a.altIdCol)
    (rowIndex m.data a.altIdCol (specColumns alts s) p.index) (fun r => (hclip r).1) fun r => (hclip r).2
  rw [hdata, key]

open Reference in
/-- **C132** (predictions). With parameters measured from other alternatives, the two models predict the same
probabilities for every table, of all rows and of the choices, unless a utility is clipped. -/
theorem predictions_ignore_reference_alternative {env env' : Env ℝ} {ty : String} {df : Frame ℝ} {a : ModelArgs ℝ}
    {m m' : ChoiceModel ℝ} {s : List (String × SpecVal ℝ)} {iref sref : PyRef} {inm snm : Option (List String)}
    (hm : createChoiceModel env ty df a = .ok m) (hspec : a.specification = encodeAll s)
    (hm' : createChoiceModel env' ty df { a with
      interceptRefPos := iref, interceptNames := inm, shapeRefPos := sref, shapeNames := snm } = .ok m')
    {nf : Frame ℝ} {alts : List ℝ} (ha : AltsOf (addIntercept a.specification nf) a.altIdCol alts)
    (h2 : m.cls = .asym → 2 ≤ alts.length) {stored stored' : ParamArrays} {pl pl' : Option ParamArrays} {q : AltParams}
    {b c : ℝ} (hp : HoldsFor m.cls alts m.args.interceptRefPos m.args.shapeRefPos (pl.getD stored) q)
    (hp' : HoldsFor m.cls alts m'.args.interceptRefPos m'.args.shapeRefPos (pl'.getD stored') (q.measuredFrom m.cls b c))
    (hidx : (pl'.getD stored').index = (pl.getD stored).index)
    (hclip :
      let F := addIntercept a.specification nf
      let u := fun r => rowUtility m.cls alts q (F.val a.altIdCol r)
        (rowIndex F a.altIdCol (specColumns alts s) (pl.getD stored).index r)
      ∀ r, |u r| < 700 ∧ |u r - q.icpt b| < 700)
    {rl : Bool} {cc : Option String} {res res'} (h : predict env m stored nf pl rl cc = .ok res)
    (h' : predict env' m' stored' nf pl' rl cc = .ok res') : HEq res' res := by
  obtain ⟨-, d2, d3, d4, d5, -⟩ := LR.built hm
  obtain ⟨-, d2', d3', d4', d5', -⟩ := LR.built hm'
  dsimp only at d2' d3' d4' d5'
  have k1 : m'.cls = m.cls := by
    have h1 := hm
    have h2 := hm'
    unfold createChoiceModel at h1 h2
    split at h1
    · cases h1
    · rename_i cls e
      rw [e] at h2
      obtain ⟨-, h⟩ := classInit_iff.1 h1
      obtain ⟨-, h'⟩ := classInit_iff.1 h2
      exact (baseInit_attrs h').1.trans (baseInit_attrs h).1.symm
  obtain ⟨cl, nm, dt, ds, ns, ar, ms⟩ := m
  obtain ⟨cl', nm', dt', ds', ns', ar', ms'⟩ := m'
  obtain ⟨x1, x2, x3, x4, x5, x6, x7, x8, x9, x10, x11, x12⟩ := ar
  obtain ⟨y1, y2, y3, y4, y5, y6, y7, y8, y9, y10, y11, y12⟩ := ar'
  obtain ⟨z1, z2, z3, z4, z5, z6, z7, z8, z9, z10, z11, z12⟩ := a
  dsimp only at d2 d3 d4 d5 d2' d3' d4' d5' k1 hp hp' h2 hspec ha hclip
  subst d2 d3 d4 d5 d2' d3' d4' k1 hspec
  unfold predict at h h'
  dsimp only at h h'
  generalize addIntercept (encodeAll s) nf = F at *
  have e := predict_right_alternatives_partial (s := s) rfl ha h2 hp h
  have e' := predict_right_alternatives_partial (s := s) rfl ha h2 hp' h'
  dsimp only at e e'
  have key := probs_from (F.val y2) cl' alts q b c (F.val y1)
    (rowIndex F y1 (specColumns alts s) (pl.getD stored).index) (fun r => (hclip r).1) fun r => (hclip r).2
  rw [hidx, key] at e'
  rw [e, e']

open Reference in
/-- **C132** (fits). Two models of one type of the same table that differ only in the alternative without an outside
intercept, in the alternative without a shape (for the asymmetric model), and in the names of the intercepts and shapes,
report the same log-likelihood and rho-squared, if both optimisers find maxima; there is no ridge penalty, or the same
one and two alternatives; and no utility at the estimates is clipped. -/
theorem fits_ignore_reference_alternative {env env' : Env ℝ} {ty : String} {df : Frame ℝ} {a : ModelArgs ℝ}
    {m m' : ChoiceModel ℝ} {s : List (String × SpecVal ℝ)} {iref sref : PyRef} {inm snm : Option (List String)}
    (hm : createChoiceModel env ty df a = .ok m) (hspec : a.specification = encodeAll s)
    (hm' : createChoiceModel env' ty df { a with
      interceptRefPos := iref, interceptNames := inm, shapeRefPos := sref, shapeNames := snm } = .ok m')
    (href : a.interceptRefPos = .none ↔ iref = .none)
    {alts : List ℝ} (ha : AltsOf df a.altIdCol alts) (h2 : m.cls = .asym → 2 ≤ alts.length)
    {chosen : ℝ → Fin df.numRows} (hc : OneChoicePerObs df a.obsIdCol a.choiceCol chosen)
    {solver solver' : Solver} (hsol : FaithfulSolver solver) (hmin : MinimisingSolver solver)
    (hsol' : FaithfulSolver solver') (hmin' : MinimisingSolver solver')
    {label label' : PyVal ℝ → String} {sf sf' : ℝ → ℝ} {args args' : FitArgs} (hpoint : args.justPoint = false)
    (hpoint' : args'.justPoint = false) (hridge : args'.ridge = args.ridge)
    (hpen : args.ridge = none ∨ alts.length = 2)
    {t t' : FitAttrs} (ht : HoldsResultsOf label sf m (logitFitCall solver m args) t)
    (ht' : HoldsResultsOf label' sf' m' (logitFitCall solver' m' args') t')
    (hclip : FarFromClipping m df alts (specColumns alts s) t)
    (hclip' : FarFromClipping m' df alts (specColumns alts s) t') : FitEquallyWell t t' := by
  obtain ⟨k1, -⟩ := same_class href hm hm'
  obtain ⟨⟨L, L', l1, l2, l3, l4, hle⟩, ρ, ρ', r1, r2, hρ⟩ := one_way hm hspec hm' href ha h2 hc hsol hsol' hmin' hpoint
    hpoint' hridge hpen ht ht' hclip
  obtain ⟨⟨M', M, n1, n2, n3, n4, hle'⟩, σ', σ, s1, s2, hσ⟩ := one_way hm' hspec
    (iref := a.interceptRefPos) (sref := a.shapeRefPos) (inm := a.interceptNames) (snm := a.shapeNames) hm href.symm ha
    (by rw [k1]; exact h2) hc hsol' hsol hmin hpoint' hpoint hridge.symm (by rw [hridge]; exact hpen) ht' ht hclip'
  rw [l2] at n1; rw [l1] at n2; rw [r2] at s1; rw [r1] at s2
  cases n1; cases n2; cases s1; cases s2
  obtain rfl : L = L' := by linarith
  obtain rfl : ρ = ρ' := le_antisymm hρ hσ
  exact ⟨L, ρ, l1, l2, l3, l4, r1, r2⟩

end Pylogit
