import Verif.Props.SpecOrder
import Verif.Props.FitUnits
import Verif.Props.FitUnique

/-!
# C130: fits of models whose variables are listed in another order
-/

open Finset Matrix Function

namespace Pylogit

open Spec

noncomputable section

/-! ## Derivatives in another order -/

section Derivs

variable {n n' : ℕ} {F : (Fin n → ℝ) → ℝ} {F' : (Fin n' → ℝ) → ℝ} {σ : Fin n' ≃ Fin n}

private lemma update_relisted (x : Fin n → ℝ) (i : Fin n') (s : ℝ) :
    update (fun j => x (σ j)) i s = fun j => update x (σ i) s (σ j) := by
  funext j
  by_cases h : j = i
  · subst h; simp
  · rw [update_of_ne h, update_of_ne (σ.injective.ne h)]

private lemma partials_relisted (hF : ∀ θ : Fin n → ℝ, F' (fun j => θ (σ j)) = F θ) {x : Fin n → ℝ} {g : Fin n → ℝ}
    {g' : Fin n' → ℝ} (h : HasPartials F g x) (h' : HasPartials F' g' fun j => x (σ j)) (i : Fin n') :
    g' i = g (σ i) := by
  have h2 := h' i
  simp only [update_relisted, hF] at h2
  exact h2.unique (h (σ i))

theorem partials_back (hF : ∀ θ : Fin n → ℝ, F' (fun j => θ (σ j)) = F θ) {x : Fin n → ℝ} {g' : Fin n' → ℝ}
    (h' : HasPartials F' g' fun j => x (σ j)) : HasPartials F (fun j => g' (σ.symm j)) x := by
  intro i
  have h2 := h' (σ.symm i)
  simp only [update_relisted, hF, σ.apply_symm_apply] at h2
  exact h2

private lemma seconds_relisted (hF : ∀ θ : Fin n → ℝ, F' (fun j => θ (σ j)) = F θ) {x : Fin n → ℝ}
    {H : Matrix (Fin n) (Fin n) ℝ} {H' : Matrix (Fin n') (Fin n') ℝ} (h : HasSecondPartials F H x)
    (h' : HasSecondPartials F' H' fun j => x (σ j)) : H' = H.submatrix σ σ := by
  ext i j
  have h2 := h' i j
  simp only [update_relisted, hF] at h2
  exact h2.unique (h (σ i) (σ j))

end Derivs

theorem logLik_relisted (D : LongData) (ridge : Option ℝ) {n n' : ℕ} {σ : Fin n' ≃ Fin n}
    {U : (Fin n → ℝ) → Fin D.df.numRows → ℝ} {U' : (Fin n' → ℝ) → Fin D.df.numRows → ℝ}
    (hU : ∀ θ : Fin n → ℝ, U' (fun j => θ (σ j)) = U θ) (θ : Fin n → ℝ) :
    D.logLik ridge U' (fun j => θ (σ j)) = D.logLik ridge U θ := by
  unfold LongData.logLik
  rw [hU]
  congr 2
  exact σ.sum_comp fun k => θ k ^ 2

/-! ## Reports in another order -/

theorem report_relisted {D : LongData} {ridge : Option ℝ} {chosen : ℝ → Fin D.df.numRows}
    (hc : OneChoicePerObs D.df D.obsCol D.choiceCol chosen) {n n' : ℕ} {σ : Fin n' ≃ Fin n}
    {U : (Fin n → ℝ) → Fin D.df.numRows → ℝ} {U' : (Fin n' → ℝ) → Fin D.df.numRows → ℝ}
    (hU : ∀ θ : Fin n → ℝ, U' (fun j => θ (σ j)) = U θ) {x : Fin n → ℝ} {x' : Fin n' → ℝ} (hx : x' = fun j => x (σ j))
    {sf : ℝ → ℝ} {labels : Fin n → String} {labels' : Fin n' → String} (hl : labels' = fun j => labels (σ j))
    {H F : Matrix (Fin n) (Fin n) ℝ} {H' F' : Matrix (Fin n') (Fin n') ℝ}
    {t t' : FitAttrs} (r : FitReport D ridge U labels x t) (r' : FitReport D ridge U' labels' x' t')
    (d : DerivativeReport D ridge U labels x F t) (d' : DerivativeReport D ridge U' labels' x' F' t')
    (hH : HasSecondPartials (D.logLik ridge U) H x) (hH' : HasSecondPartials (D.logLik ridge U') H' x')
    (i : InferenceReport sf labels none x H F t) (i' : InferenceReport sf labels' none x' H' F' t') :
    SameFitRelisted σ t t' := by
  subst hx hl
  obtain rfl : n' = n := by simpa using Fintype.card_congr σ
  have hL : ∀ θ, D.logLik ridge U' (fun j => θ (σ j)) = D.logLik ridge U θ :=
    logLik_relisted D ridge hU
  have hHs := seconds_relisted hL hH hH'
  subst hHs
  have hFs : F' = F.submatrix σ σ := by
    obtain ⟨S, s1, s2⟩ := d.fisher
    obtain ⟨S', s1', s2'⟩ := d'.fisher
    ext a b
    rw [s2', submatrix_apply, s2]
    simp only [σ.injective.eq_iff]
    congr 1
    refine Finset.sum_congr rfl fun q _ => ?_
    by_cases hr : q = chosen (D.df.val D.obsCol q)
    · have h1 : D.y q = 1 := by
        have := hc.one q
        rwa [← hr] at this
      have key := fun l => partials_relisted (F := fun θ => Real.log (D.prob (U θ) q))
        (F' := fun θ => Real.log (D.prob (U' θ) q)) (fun θ => by beta_reduce; rw [hU]) (s1 q h1) (s1' q h1) l
      rw [key a, key b]
    · have h0 : D.y q = 0 := hc.zero q hr
      rw [h0, zero_mul, zero_mul]
  subst hFs
  have hinv : (H.submatrix σ σ)⁻¹ = H⁻¹.submatrix σ σ := inv_submatrix_equiv _ _ _
  have hrob : (H.submatrix σ σ)⁻¹ * F.submatrix σ σ * (H.submatrix σ σ)⁻¹ = (H⁻¹ * F * H⁻¹).submatrix σ σ := by
    rw [hinv, submatrix_mul_equiv, submatrix_mul_equiv]
  have hfix : ∀ (labels : Fin n' → String) j, ¬ FixedLabel labels none j := fun labels j h => by
    obtain ⟨z, hz, -⟩ := h
    simp at hz
  have hcov : ∀ a b, (-(H.submatrix σ σ)⁻¹) a b = (-H⁻¹) (σ a) (σ b) := fun a b => by
    rw [hinv]; rfl
  obtain ⟨st, pr⟩ := r
  obtain ⟨st', pr'⟩ := r'
  rw [hL] at st'
  rw [hU] at pr'
  refine
    { logLik := ⟨st'.logLik.trans st.logLik.symm, st'.llf.trans st.llf.symm, st'.nullLL.trans st.nullLL.symm⟩
      goodness := ⟨st'.rhoSq.trans st.rhoSq.symm, st'.rhoBarSq.trans st.rhoBarSq.symm, st'.aic.trans st.aic.symm,
        st'.bic.trans st.bic.symm⟩
      counts := ⟨st'.nobs.trans st.nobs.symm, st'.dfModel.trans st.dfModel.symm, st'.dfResid.trans st.dfResid.symm⟩
      probabilities := ⟨pr'.longProbs.trans pr.longProbs.symm, pr'.fittedProbs.trans pr.fittedProbs.symm⟩
      residuals := ⟨pr'.residuals.trans pr.residuals.symm, pr'.indChi.trans pr.indChi.symm,
        pr'.chiSquare.trans pr.chiSquare.symm⟩
      params := ⟨_, x, st.params, st'.params⟩
      gradient := ?_
      stdErrs := ?_
      tvalues := ?_
      pvalues := ?_
      hessian := ⟨_, H, i.hessian, i'.hessian⟩
      cov := ⟨_, -H⁻¹, i.cov, by rw [i'.cov, hinv]; rfl⟩
      fisher := ⟨_, F, i.fisher, i'.fisher⟩
      robustCov := ⟨_, H⁻¹ * F * H⁻¹, i.robustCov, by rw [i'.robustCov, hrob]; rfl⟩
      robust := ?_ }
  · obtain ⟨g, g1, g2⟩ := d.gradient
    obtain ⟨g', g1', g2'⟩ := d'.gradient
    obtain rfl : g' = _ := funext fun j => partials_relisted hL g2 g2' j
    exact ⟨_, g, g1, g1'⟩
  · obtain ⟨e, h1, -, h2⟩ := i.stdErrs
    obtain ⟨e', h1', -, h2'⟩ := i'.stdErrs
    refine ⟨_, e, h1, h1'.trans ?_⟩
    congr 3
    funext j
    rw [(h2' j).2 (hfix _ j), (h2 _).2 (hfix _ _), hcov]
  · obtain ⟨e, h1, h2⟩ := i.tvalues
    obtain ⟨e', h1', h2'⟩ := i'.tvalues
    refine ⟨_, e, h1, h1'.trans ?_⟩
    congr 3
    funext j
    rw [(h2' j).2 (hfix _ j), (h2 _).2 (hfix _ _), hcov]
  · obtain ⟨e, h1, h2⟩ := i.pvalues
    obtain ⟨e', h1', h2'⟩ := i'.pvalues
    refine ⟨_, e, h1, h1'.trans ?_⟩
    congr 3
    funext j
    rw [(h2' j).2 (hfix _ j), (h2 _).2 (hfix _ _), hcov]
  · obtain ⟨e, v, p, h1, h2, h3, h4⟩ := i.robust
    obtain ⟨e', v', p', h1', h2', h3', h4'⟩ := i'.robust
    refine ⟨_, _, _, e, v, p, e', v', p', i.robustCov, h1, h1', h2, h2', h3, h3', fun _ => rfl, fun j hj => ?_⟩
    have hj' := h4' j
    rw [hrob] at hj'
    simp only [submatrix_apply] at hj'
    rcases lt_or_gt_of_ne hj with h | h
    · obtain ⟨a1, a2, a3⟩ := (h4 (σ j)).2.2 h
      obtain ⟨b1, b2, b3⟩ := hj'.2.2 h
      exact ⟨b1.trans a1.symm, b2.trans a2.symm, b3.trans a3.symm⟩
    · obtain ⟨a1, a2, a3⟩ := (h4 (σ j)).2.1 (hfix _ _) h
      obtain ⟨b1, b2, b3⟩ := hj'.2.1 (hfix _ _) h
      exact ⟨b1.trans a1.symm, b2.trans a2.symm, b3.trans a3.symm⟩

/-! ## C130: fits -/

/-- **C130** (whole fits of the multinomial logit). Build two multinomial logit models on a table, with the variables of
the index listed in two orders, and let both objects hold the results of fits with the same ridge penalty, which is not
negative, and without fixed parameters, after any other calls, each with any starting values and any optimiser that
finds global maxima. If no utility is clipped at the estimates, both report the same log-likelihoods, fit statistics,
probabilities and residuals, and under the same names the same estimates, standard errors, t-values, p-values,
derivatives and covariances. -/
theorem fit_reports_ignore_listing_order {env : Env ℝ} {ty : String} {df : Frame ℝ} {a a' : ModelArgs ℝ}
    {m m' : ChoiceModel ℝ} {s s' : List (String × SpecVal ℝ)} (hs : s'.Perm s) (hkeys : (s.map Prod.fst).Nodup)
    (hspec : a.specification = encodeAll s) (hspec' : a'.specification = encodeAll s')
    (hsame : a' = { a with specification := a'.specification, names := a'.names, nestSpec := a'.nestSpec })
    (hnames : SameNames a a')
    (hm : createChoiceModel env ty df a = .ok m) (hm' : createChoiceModel env ty df a' = .ok m') (hcls : m.cls = .mnl)
    {alts : List ℝ} (ha : AltsOf m.data m.args.altIdCol alts)
    {chosen : ℝ → Fin m.data.numRows} (hc : OneChoicePerObs m.data m.args.obsIdCol m.args.choiceCol chosen)
    {solver solver' : Solver} (hsol : FaithfulSolver solver) (hsol' : FaithfulSolver solver')
    (hmin : MinimisingSolver solver) (hmin' : MinimisingSolver solver') (label : PyVal ℝ → String) (sf : ℝ → ℝ)
    {args args' : FitArgs} (hpoint : args.justPoint = false) (hpoint' : args'.justPoint = false)
    (hridge : 0 ≤ args.ridge.getD 0) (hr : args'.ridge = args.ridge)
    (hcon : args.constrained = none) (hcon' : args'.constrained = none) {t t' : FitAttrs}
    (ht : HoldsResultsOf label sf m (mnlFitCall solver m args) t)
    (ht' : HoldsResultsOf label sf m' (mnlFitCall solver' m' args') t')
    (hin : UnclippedFit m.data m.args.altIdCol (specColumns alts s) t)
    (hin' : UnclippedFit m'.data m'.args.altIdCol (specColumns alts s') t') :
    ∃ σ, Relists (specColumns alts s') (specColumns alts s) σ ∧ SameFitRelisted σ t t' := by
  have R := relisted hs hspec hspec' hsame hm hm'
  obtain ⟨σ, hσ, hl, hl', hnm⟩ := listing_order_columns hs hkeys hspec hspec' hsame hnames hm hm' ha
  refine ⟨σ, hσ, ?_⟩
  obtain ⟨⟨-, -, -, q1, q3⟩, -⟩ := built_cols hm
  have q2 : m'.args.specification = encodeAll s' := (built_cols hm').1.2.2.2.1.trans hspec'
  rw [hspec] at q1
  have k1 : (encodeAll s).map Prod.fst = s.map Prod.fst := by simp [encodeAll, Function.comp_def]
  have n1 : ∀ ns, m.args.names = some ns → (ns.map Prod.fst).Nodup := fun ns e => by
    rcases hnames with ⟨h1, -⟩ | ⟨ns₁, -, h1, -, -, h4, -⟩
    · rw [q3, h1] at e; cases e
    · rw [q3, h1] at e
      rw [← Option.some.inj e, h4, hspec, k1]
      exact hkeys
  obtain ⟨before, after, hst, hafter, rfl⟩ := ht
  obtain ⟨before', after', hst', hafter', rfl⟩ := ht'
  have hid : 0 < args.ridge.getD 0 ∨ Identified m.data m.args.obsIdCol m.args.altIdCol (specColumns alts s) := by
    obtain ⟨r, hr⟩ : ∃ r, mnlFit solver m args = .ok r := by
      have h0 := hst
      unfold mnlFitCall at h0
      rw [hpoint] at h0
      cases hf : mnlFit solver m args with
      | error e => simp [hf, fitOutcome, fitCall] at h0
      | ok r => exact ⟨r, rfl⟩
    exact (mnl_fit_stores_iff hm hcls q1 hkeys n1 ha hc label sf before args hpoint hridge hr).1 hst
  have hids : AltsOf m.data m.args.obsIdCol (npUnique (m.data.colList m.args.obsIdCol)) :=
    ⟨npUnique_strict _, fun a => by rw [mem_npUnique, Frame.colList, List.mem_ofFn]⟩
  set ids := npUnique (m.data.colList m.args.obsIdCol)
  obtain ⟨n, x, labels, H, F, hn, hlab, -, hrep, hmax, hder, hinf, -⟩ :=
    mnl_fit_report hm hcls q1 ha hids hc hsol label sf before after args hpoint hst hafter
  obtain ⟨c, nm, dt, ds, ivn', ar, ms⟩ := m'
  obtain ⟨r1, r2, r3, r4, r5, -, -, -, -⟩ := R
  dsimp only at r1 r2 r3 r4 r5 q2 hnm hl' hin'
  subst r1 r2
  obtain ⟨n', x', labels', H', F', hn', hlab', -, hrep', hmax', hder', hinf', -⟩ :=
    mnl_fit_report (alts := alts) (ids := ids) (chosen := chosen) hm' hcls q2 (by dsimp only; rw [r3]; exact ha)
      (by dsimp only; rw [r4]; exact hids) (by dsimp only; rw [r4, r5]; exact hc) hsol' label sf before' after' args'
      hpoint' hst' hafter'
  subst hn hn'
  rw [hr] at hrep' hmax' hder' hinf'
  rw [hcon] at hinf
  rw [hcon'] at hinf'
  have u1 := hin _ _ hrep.statistics.params
  have u2 := hin' _ _ hrep'.statistics.params
  obtain ⟨d1, s1⟩ := hder u1
  obtain ⟨d2, s2⟩ := hder' u2
  dsimp only [tableOf] at hrep' hmax' d2 s2 u2
  rw [r4, r5, r3] at hrep' d2 s2
  rw [r4, r5, r3] at hmax'
  rw [r3] at u2
  set U := fun (θ : Fin (specColumns alts s).length → ℝ) r =>
    rowIndex m.data m.args.altIdCol (specColumns alts s) (List.ofFn θ) r with hUdef
  set U' := fun (θ : Fin (specColumns alts s').length → ℝ) r =>
    rowIndex m.data m.args.altIdCol (specColumns alts s') (List.ofFn θ) r with hUdef'
  have hU : ∀ θ : Fin (specColumns alts s).length → ℝ, U' (fun j => θ (σ j)) = U θ := fun θ =>
    funext fun r => rowIndex_relisted hσ θ r
  change ∀ r, |U' x' r| < 700 at u2
  change ∀ r, |U x r| < 700 at u1
  have hLL := logLik_relisted (tableOf m ids) args.ridge hU
  obtain ⟨z, rfl⟩ : ∃ z : Fin (specColumns alts s).length → ℝ, x' = fun j => z (σ j) :=
    ⟨fun j => x' (σ.symm j), by simp⟩
  rw [hU] at u2
  have eD : ∀ θ : Fin (specColumns alts s).length → ℝ,
      describedMatrix m.data m.args.altIdCol (specColumns alts s) (specColumns alts s).length *ᵥ θ = U θ :=
    fun θ => described_dot rfl θ
  have hx : z = x := by
    obtain ⟨g, -, p1⟩ := d1.gradient
    obtain ⟨g', -, p2⟩ := d2.gradient
    have p3 := partials_back hLL p2
    have e1 : (tableOf m ids).logLik args.ridge U = fun θ => clippedLogLik (m.data.val m.args.obsIdCol)
        (m.data.val m.args.choiceCol)
        (describedMatrix m.data m.args.altIdCol (specColumns alts s) (specColumns alts s).length *ᵥ θ) -
        args.ridge.getD 0 * ∑ k, θ k ^ 2 := by
      funext θ
      rw [eD]
      rfl
    have z1 : ∀ k, g k = 0 := fun k => IsLocalMax.hasDerivAt_eq_zero (Filter.Eventually.of_forall fun v => by
      have := hmax hmin (update x k v)
      simpa only [update_eq_self] using this) (p1 k)
    have z2 : ∀ k, g' (σ.symm k) = 0 := fun k => IsLocalMax.hasDerivAt_eq_zero (Filter.Eventually.of_forall fun v => by
      have := hmax' hmin' (fun j => update z k v (σ j))
      have e2 := hLL (update z k v)
      have e3 := hLL z
      simp only [update_eq_self]
      exact e2.symm.trans_le (this.trans e3.le)) (p3 k)
    rw [e1] at p1 p3
    refine stationary_unique (fun r => choices_nonneg hc r) hridge (fun r => by rw [eD]; exact u1 r)
      (fun r => by rw [eD]; exact u2 r) p1 p3 (fun k => .inr ⟨z1 k, z2 k⟩)
      (hid.imp id fun hI v hv => hI v fun r q hrq => ?_)
    have := hv (chosen (m.data.val m.args.obsIdCol r)) r q (by rw [hc.one]; exact one_pos) (hc.mem _).symm
      (hrq.symm.trans (hc.mem _).symm)
    rw [eD] at this
    exact this
  subst hx
  have hll : labels' = fun j => labels (σ j) := by
    funext j
    have h1 : (List.ofFn labels')[(j : ℕ)]? = (List.ofFn labels)[(σ j : ℕ)]? := by
      rw [hlab, hlab', List.getElem?_map, List.getElem?_map, hnm j]
    simpa using h1
  exact report_relisted (D := tableOf m ids) hc hU rfl hll hrep hrep' d1 d2 s1 s2 (hinf hridge) (hinf' hridge)

end

end Pylogit
