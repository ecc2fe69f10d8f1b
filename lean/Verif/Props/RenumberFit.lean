import Verif.Props.RenumberBuild
import Verif.Props.SpecOrderFit

/-!
# C131: whole fits of models whose alternatives have other numbers
-/

open Finset Matrix Function

namespace Pylogit

open Spec

noncomputable section

section Table

variable {cols : List String} {N : ℕ} {val val' : String → Fin N → ℝ} {o ch : String} {ids : List ℝ}
  (ho : val' o = val o) (hch : val' ch = val ch)
  {ridge : Option ℝ} {n : ℕ} {U : (Fin n → ℝ) → Fin N → ℝ} {labels : Fin n → String} {x : Fin n → ℝ} {t : FitAttrs}

private lemma y_congr (hch : val' ch = val ch) :
    LongData.y ⟨⟨cols, N, val'⟩, o, ch, ids⟩ = LongData.y ⟨⟨cols, N, val⟩, o, ch, ids⟩ :=
  hch

private lemma rows_congr (ho : val' o = val o) :
    LongData.rows ⟨⟨cols, N, val'⟩, o, ch, ids⟩ = LongData.rows ⟨⟨cols, N, val⟩, o, ch, ids⟩ := by
  funext i
  simp only [LongData.rows, ho]

private lemma prob_congr (ho : val' o = val o) :
    LongData.prob ⟨⟨cols, N, val'⟩, o, ch, ids⟩ = LongData.prob ⟨⟨cols, N, val⟩, o, ch, ids⟩ := by
  unfold LongData.prob
  dsimp only
  rw [ho]

include ho hch

private lemma logLik_congr : LongData.logLik ⟨⟨cols, N, val'⟩, o, ch, ids⟩ ridge U =
    LongData.logLik ⟨⟨cols, N, val⟩, o, ch, ids⟩ ridge U := by
  funext θ
  unfold LongData.logLik
  rw [y_congr hch, prob_congr ho]

theorem shares_congr :
    LongData.equalShares ⟨⟨cols, N, val'⟩, o, ch, ids⟩ = LongData.equalShares ⟨⟨cols, N, val⟩, o, ch, ids⟩ := by
  unfold LongData.equalShares
  rw [y_congr hch, rows_congr ho]
  dsimp only
  rw [ho]

private lemma report_congr (h : FitReport ⟨⟨cols, N, val'⟩, o, ch, ids⟩ ridge U labels x t) :
    FitReport ⟨⟨cols, N, val⟩, o, ch, ids⟩ ridge U labels x t := by
  obtain ⟨⟨a1, a2, a3, a4, a5, a6, a7, a8, a9, a10, a11, a12⟩, ⟨b1, b2, b3, b4, b5⟩⟩ := h
  rw [logLik_congr ho hch] at a2 a3 a5 a6 a7 a8 a12
  rw [shares_congr ho hch] at a4 a5 a6 a12
  rw [prob_congr ho] at b1 b2 b3 b4 b5
  rw [y_congr hch] at b2 b3 b4 b5
  rw [rows_congr ho] at b2 b4
  exact ⟨⟨a1, a2, a3, a4, a5, a6, a7, a8, a9, a10, a11, a12⟩, ⟨b1, b2, b3, b4, b5⟩⟩

private lemma derivatives_congr {F : Matrix (Fin n) (Fin n) ℝ}
    (h : DerivativeReport ⟨⟨cols, N, val'⟩, o, ch, ids⟩ ridge U labels x F t) :
    DerivativeReport ⟨⟨cols, N, val⟩, o, ch, ids⟩ ridge U labels x F t := by
  obtain ⟨⟨d, a1, a2⟩, S, b1, b2⟩ := h
  rw [logLik_congr ho hch] at a2
  rw [y_congr hch] at b1 b2
  rw [prob_congr ho] at b1
  exact ⟨⟨d, a1, a2⟩, S, b1, b2⟩

end Table

/-- **C131** (whole fits of the multinomial logit). Build multinomial logit models on two tables that differ in the
numbers of the alternatives only, and let both objects hold the results of fits with the same ridge penalty, which is not
negative, and without fixed parameters, after any other calls, each with any starting values and any optimiser that
finds global maxima. If no utility is clipped at the estimates, and corresponding columns have the same names, both
report the same log-likelihoods, fit statistics, probabilities and residuals, and under the same names the same
estimates, standard errors, t-values, p-values, derivatives and covariances. -/
theorem fit_reports_ignore_alternative_numbers {g : ℝ → ℝ} (hg : Injective g) {env env' : Env ℝ} {ty : String}
    {df : Frame ℝ} {a a' : ModelArgs ℝ} {m m' : ChoiceModel ℝ} {s : List (String × SpecVal ℝ)}
    (hkeys : (s.map Prod.fst).Nodup) (hspec : a.specification = encodeAll s)
    (hspec' : a'.specification = encodeAll (renumberSpec g s)) (hroles : SameRoles a a')
    (hvar : a.altIdCol ∉ s.map Prod.fst) (hdict : ∀ ns, a.names = some ns → (ns.map Prod.fst).Nodup)
    (hm : createChoiceModel env ty df a = .ok m)
    (hm' : createChoiceModel env' ty (renumbered df a.altIdCol g) a' = .ok m') (hcls : m.cls = .mnl)
    {alts alts' : List ℝ} (ha : AltsOf m.data m.args.altIdCol alts) (ha' : AltsOf m'.data m'.args.altIdCol alts')
    {σ : Fin (specColumns alts' (renumberSpec g s)).length ≃ Fin (specColumns alts s).length}
    (hσ : RelistsRenumbered g (specColumns alts' (renumberSpec g s)) (specColumns alts s) σ)
    (hnm : ∀ j : Fin (specColumns alts' (renumberSpec g s)).length,
      m'.indVarNames[(j : ℕ)]? = m.indVarNames[(σ j : ℕ)]?)
    {chosen : ℝ → Fin m.data.numRows} (hc : OneChoicePerObs m.data m.args.obsIdCol m.args.choiceCol chosen)
    {solver solver' : Solver} (hsol : FaithfulSolver solver) (hsol' : FaithfulSolver solver')
    (hmin : MinimisingSolver solver) (hmin' : MinimisingSolver solver') (label : PyVal ℝ → String) (sf : ℝ → ℝ)
    {args args' : FitArgs} (hpoint : args.justPoint = false) (hpoint' : args'.justPoint = false)
    (hridge : 0 ≤ args.ridge.getD 0) (hr : args'.ridge = args.ridge)
    (hcon : args.constrained = none) (hcon' : args'.constrained = none) {t t' : FitAttrs}
    (ht : HoldsResultsOf label sf m (mnlFitCall solver m args) t)
    (ht' : HoldsResultsOf label sf m' (mnlFitCall solver' m' args') t')
    (hin : UnclippedFit m.data m.args.altIdCol (specColumns alts s) t)
    (hin' : UnclippedFit m'.data m'.args.altIdCol (specColumns alts' (renumberSpec g s)) t') :
    SameFitRelisted σ t t' := by
  have R := renumbered_models hspec hspec' hroles hvar hm hm'
  obtain ⟨⟨p1, -, -, q1, q3⟩, -⟩ := built_cols hm
  have q2 : m'.args.specification = encodeAll (renumberSpec g s) := (built_cols hm').1.2.2.2.1.trans hspec'
  rw [hspec] at q1
  rw [← p1] at hvar
  obtain ⟨before, after, hst, hafter, rfl⟩ := ht
  obtain ⟨before', after', hst', hafter', rfl⟩ := ht'
  have hid : 0 < args.ridge.getD 0 ∨ Identified m.data m.args.obsIdCol m.args.altIdCol (specColumns alts s) := by
    obtain ⟨r, hr⟩ : ∃ r, mnlFit solver m args = .ok r := by
      have h0 := hst
      unfold mnlFitCall at h0
      rw [hpoint] at h0
      cases hf : mnlFit solver m args with
      | error e => simp [hf, fitOutcome, fitCall] at h0
      | ok r => exact ⟨r, rfl⟩
    exact (mnl_fit_stores_iff hm hcls q1 hkeys (fun ns e => hdict ns (q3 ▸ e)) ha hc label sf before args hpoint hridge
      hr).1 hst
  have hids : AltsOf m.data m.args.obsIdCol (npUnique (m.data.colList m.args.obsIdCol)) :=
    ⟨npUnique_strict _, fun a => by rw [mem_npUnique, Frame.colList, List.mem_ofFn]⟩
  set ids := npUnique (m.data.colList m.args.obsIdCol)
  obtain ⟨n, x, labels, H, F, hn, hlab, -, hrep, hmax, hder, hinf, -⟩ :=
    mnl_fit_report hm hcls q1 ha hids hc hsol label sf before after args hpoint hst hafter
  have hUU : ∀ (θ : Fin (specColumns alts s).length → ℝ) r,
      rowIndex (renumbered m.data m.args.altIdCol g) m.args.altIdCol (specColumns alts' (renumberSpec g s))
        (List.ofFn fun j => θ (σ j)) r = rowIndex m.data m.args.altIdCol (specColumns alts s) (List.ofFn θ) r :=
    fun θ r => rowIndex_renumbered (df := m.data) hg hvar hσ θ r
  clear_value ids
  obtain ⟨c0, nm0, ⟨cols, N, val⟩, ds0, ivn0, ar0, ms0⟩ := m
  obtain ⟨c, nm, dt, ds, ivn', ar, ms⟩ := m'
  obtain ⟨r1, r2, r3, ⟨r4, s4⟩, ⟨r5, s5⟩⟩ := R
  dsimp only at r1 r2 r3 r4 r5 s4 s5 q1 q2 hnm hin hin' hUU hid hids ha ha' hc chosen p1
  obtain ⟨val', hv, vo, vc, hUV⟩ : ∃ val' : String → Fin N → ℝ,
      renumbered ⟨cols, N, val⟩ ar0.altIdCol g = ⟨cols, N, val'⟩ ∧ val' ar0.obsIdCol = val ar0.obsIdCol ∧
      val' ar0.choiceCol = val ar0.choiceCol ∧ ∀ (θ : Fin (specColumns alts s).length → ℝ) (r : Fin N),
        rowIndex ⟨cols, N, val'⟩ ar0.altIdCol (specColumns alts' (renumberSpec g s)) (List.ofFn fun j => θ (σ j)) r =
          rowIndex ⟨cols, N, val⟩ ar0.altIdCol (specColumns alts s) (List.ofFn θ) r :=
    ⟨_, rfl, funext fun r => if_neg s4, funext fun r => if_neg s5, hUU⟩
  rw [hv] at r2
  clear hUU hv
  subst r1 r2
  obtain ⟨n', x', labels', H', F', hn', hlab', -, hrep', hmax', hder', hinf', -⟩ :=
    mnl_fit_report (alts := alts') (ids := ids) (chosen := chosen) hm' hcls q2 ha'
      (by
        refine ⟨hids.ascending, fun b => ?_⟩
        rw [hids.mem]
        dsimp only
        rw [r4, vo])
      (by
        obtain ⟨h1, h2, h3⟩ := hc
        dsimp only at h1 h2 h3 ⊢
        rw [r4, r5]
        refine ⟨?_, ?_, ?_⟩ <;> dsimp only <;> (try rw [vo]) <;> (try rw [vc]) <;> assumption) hsol' label sf before'
      after' args' hpoint' hst' hafter'
  subst hn hn'
  rw [hr] at hrep' hmax' hder' hinf'
  rw [hcon] at hinf
  rw [hcon'] at hinf'
  have u1 := hin _ _ hrep.statistics.params
  have u2 := hin' _ _ hrep'.statistics.params
  obtain ⟨d1, s1⟩ := hder u1
  obtain ⟨d2, s2⟩ := hder' u2
  dsimp only [tableOf] at hrep' hmax' d2 s2 u2 hrep hmax d1 s1 u1 hlab hlab'
  rw [r4, r5, r3] at hrep' d2 s2 hmax'
  rw [r3] at u2
  have hrep' := report_congr vo vc hrep'
  have d2 := derivatives_congr vo vc d2
  rw [logLik_congr vo vc] at s2 hmax'
  set U := fun (θ : Fin (specColumns alts s).length → ℝ) (r : Fin N) =>
    rowIndex ⟨cols, N, val⟩ ar0.altIdCol (specColumns alts s) (List.ofFn θ) r with hUdef
  set U' := fun (θ : Fin (specColumns alts' (renumberSpec g s)).length → ℝ) (r : Fin N) =>
    rowIndex ⟨cols, N, val'⟩ ar0.altIdCol (specColumns alts' (renumberSpec g s)) (List.ofFn θ) r with hUdef'
  have hU : ∀ θ : Fin (specColumns alts s).length → ℝ, U' (fun j => θ (σ j)) = U θ := fun θ =>
    funext fun r => hUV θ r
  change ∀ r, |U' x' r| < 700 at u2
  change ∀ r, |U x r| < 700 at u1
  set D : LongData := ⟨⟨cols, N, val⟩, ar0.obsIdCol, ar0.choiceCol, ids⟩ with hD
  have hLL := logLik_relisted D args.ridge hU
  obtain ⟨z, rfl⟩ : ∃ z : Fin (specColumns alts s).length → ℝ, x' = fun j => z (σ j) :=
    ⟨fun j => x' (σ.symm j), by simp⟩
  rw [hU] at u2
  have eD : ∀ θ : Fin (specColumns alts s).length → ℝ,
      describedMatrix ⟨cols, N, val⟩ ar0.altIdCol (specColumns alts s) (specColumns alts s).length *ᵥ θ = U θ :=
    fun θ => described_dot rfl θ
  have hx : z = x := by
    obtain ⟨d, -, p1⟩ := d1.gradient
    obtain ⟨d', -, p2⟩ := d2.gradient
    have p3 := partials_back hLL p2
    have e1 : D.logLik args.ridge U = fun θ => clippedLogLik (val ar0.obsIdCol) (val ar0.choiceCol)
        (describedMatrix ⟨cols, N, val⟩ ar0.altIdCol (specColumns alts s) (specColumns alts s).length *ᵥ θ) -
        args.ridge.getD 0 * ∑ k, θ k ^ 2 := by
      funext θ
      rw [eD]
      rfl
    have z1 : ∀ k, d k = 0 := fun k => IsLocalMax.hasDerivAt_eq_zero (Filter.Eventually.of_forall fun v => by
      have := hmax hmin (update x k v)
      simpa only [update_eq_self] using this) (p1 k)
    have z2 : ∀ k, d' (σ.symm k) = 0 := fun k => IsLocalMax.hasDerivAt_eq_zero (Filter.Eventually.of_forall fun v => by
      have := hmax' hmin' (fun j => update z k v (σ j))
      have e2 := hLL (update z k v)
      have e3 := hLL z
      simp only [update_eq_self]
      exact e2.symm.trans_le (this.trans e3.le)) (p3 k)
    rw [e1] at p1 p3
    refine stationary_unique (fun r => choices_nonneg hc r) hridge (fun r => by rw [eD]; exact u1 r)
      (fun r => by rw [eD]; exact u2 r) p1 p3 (fun k => .inr ⟨z1 k, z2 k⟩)
      (hid.imp id fun hI v hv => hI v fun r q hrq => ?_)
    have := hv (chosen (val ar0.obsIdCol r)) r q (by rw [hc.one]; exact one_pos) (hc.mem _).symm
      (hrq.symm.trans (hc.mem _).symm)
    rw [eD] at this
    exact this
  subst hx
  have hll : labels' = fun j => labels (σ j) := by
    funext j
    have h1 : (List.ofFn labels')[(j : ℕ)]? = (List.ofFn labels)[(σ j : ℕ)]? := by
      rw [hlab, hlab', List.getElem?_map, List.getElem?_map, hnm j]
    simpa using h1
  exact report_relisted (D := D) hc hU rfl hll hrep hrep' d1 d2 s1 s2 (hinf hridge) (hinf' hridge)

/-- The names given by the user do not change with the numbers of the alternatives. -/
theorem names_renumbered {g : ℝ → ℝ} (hg : Injective g) {env : Env ℝ} {ty : String} {df : Frame ℝ} {a a' : ModelArgs ℝ}
    {m m' : ChoiceModel ℝ} {s : List (String × SpecVal ℝ)} (hspec : a.specification = encodeAll s)
    (hspec' : a'.specification = encodeAll (renumberSpec g s)) (hroles : SameRoles a a')
    (hvar : a.altIdCol ∉ s.map Prod.fst) (hnames : a'.names = a.names) (hsome : a.names ≠ none)
    (hm : createChoiceModel env ty df a = .ok m)
    (hm' : createChoiceModel env ty (renumbered df a.altIdCol g) a' = .ok m') : m'.indVarNames = m.indVarNames := by
  have R := renumbered_models hspec hspec' hroles hvar hm hm'
  have d1 := (built_own hm).1.design
  have d2 := (built_own hm').1.design
  obtain ⟨⟨-, -, -, q1, q3⟩, -⟩ := built_cols hm
  obtain ⟨⟨-, -, -, q1', q3'⟩, -⟩ := built_cols hm'
  rw [q1, hspec] at d1
  rw [q1', hspec', q3', hnames, ← q3, R.alt] at d2
  obtain ⟨d', h1, h2⟩ := Renumbering.design_renumbered hg d1
  have h2 := h2 (by rw [q3]; exact hsome)
  clear hm' q1' q3'
  obtain ⟨c, nm, dt, ds, ivn', ar, ms⟩ := m'
  have r2 := R.data
  dsimp only at r2 d2 ⊢
  subst r2
  rw [h1] at d2
  have := Except.ok.inj d2
  rw [this] at h2
  exact h2

/-- **C131** (whole fits of the multinomial logit, new numbers in the order of the old ones). If the user names the
parameters, the two fits report the same, in the same order. -/
theorem fit_reports_ignore_increasing_numbers {g : ℝ → ℝ} (hg : StrictMono g) {env : Env ℝ} {ty : String}
    {df : Frame ℝ} {a a' : ModelArgs ℝ} {m m' : ChoiceModel ℝ} {s : List (String × SpecVal ℝ)}
    (hkeys : (s.map Prod.fst).Nodup) (hspec : a.specification = encodeAll s)
    (hspec' : a'.specification = encodeAll (renumberSpec g s)) (hroles : SameRoles a a')
    (hvar : a.altIdCol ∉ s.map Prod.fst) (hdict : ∀ ns, a.names = some ns → (ns.map Prod.fst).Nodup)
    (hnames : a'.names = a.names) (hsome : a.names ≠ none) (hm : createChoiceModel env ty df a = .ok m)
    (hm' : createChoiceModel env ty (renumbered df a.altIdCol g) a' = .ok m') (hcls : m.cls = .mnl)
    {alts alts' : List ℝ} (ha : AltsOf m.data m.args.altIdCol alts) (ha' : AltsOf m'.data m'.args.altIdCol alts')
    {chosen : ℝ → Fin m.data.numRows} (hc : OneChoicePerObs m.data m.args.obsIdCol m.args.choiceCol chosen)
    {solver solver' : Solver} (hsol : FaithfulSolver solver) (hsol' : FaithfulSolver solver')
    (hmin : MinimisingSolver solver) (hmin' : MinimisingSolver solver') (label : PyVal ℝ → String) (sf : ℝ → ℝ)
    {args args' : FitArgs} (hpoint : args.justPoint = false) (hpoint' : args'.justPoint = false)
    (hridge : 0 ≤ args.ridge.getD 0) (hr : args'.ridge = args.ridge)
    (hcon : args.constrained = none) (hcon' : args'.constrained = none) {t t' : FitAttrs}
    (ht : HoldsResultsOf label sf m (mnlFitCall solver m args) t)
    (ht' : HoldsResultsOf label sf m' (mnlFitCall solver' m' args') t')
    (hin : UnclippedFit m.data m.args.altIdCol (specColumns alts s) t)
    (hin' : UnclippedFit m'.data m'.args.altIdCol (specColumns alts' (renumberSpec g s)) t') :
    SameFitRelisted (Equiv.refl (Fin (specColumns alts s).length)) t t' := by
  have R := renumbered_models hspec hspec' hroles hvar hm hm'
  obtain ⟨σ, hσ, hid⟩ := alternative_numbers_columns hg.injective ha (by rw [R.data, R.alt] at ha'; exact ha') s
  have hid := hid hg
  have h := fit_reports_ignore_alternative_numbers hg.injective hkeys hspec hspec' hroles hvar hdict hm hm' hcls ha ha'
    hσ (fun j => by rw [hid, names_renumbered hg.injective hspec hspec' hroles hvar hnames hsome hm hm']) hc hsol hsol'
    hmin hmin' label sf hpoint hpoint' hridge hr hcon hcon' ht ht' hin hin'
  have hlen : (specColumns alts' (renumberSpec g s)).length = (specColumns alts s).length := by
    simpa using Fintype.card_congr σ
  clear hσ hin'
  generalize (specColumns alts' (renumberSpec g s)).length = n' at *
  subst hlen
  have : σ = Equiv.refl _ := Equiv.ext fun j => Fin.ext (hid j)
  rwa [this] at h

end

end Pylogit
