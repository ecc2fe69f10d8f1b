import Verif.Spec.FitUnique
import Verif.Props.SeparationFits
import Verif.Props.Reorder

/-!
# C121: fits do not depend on how the optimiser got there
-/

set_option linter.unusedSectionVars false

open Finset Matrix Function

namespace Pylogit

open Spec

noncomputable section

variable {R O K : Type} [Fintype R] [DecidableEq R] [DecidableEq O] [Fintype K] [DecidableEq K]
  {f : R → O} {a : R → ℝ} {X : Matrix R K ℝ}

/-! ## Stationary points -/

private lemma unpenalised {ρ : ℝ} {x g : K → ℝ}
    (hg : HasPartials (fun θ => clippedLogLik f a (X *ᵥ θ) - ρ * ∑ k, θ k ^ 2) g x) :
    HasPartials (fun θ => clippedLogLik f a (X *ᵥ θ)) (fun k => g k + 2 * ρ * x k) x := by
  intro k
  have h2 : HasDerivAt (fun t => ρ * ∑ i, update x k t i ^ 2) (2 * ρ * x k) (x k) := by
    have h3 : ∀ i, HasDerivAt (fun t => update x k t i ^ 2) (if i = k then 2 * x k else 0) (x k) := by
      intro i
      by_cases hi : i = k
      · subst hi
        simp only [update_self, if_true]
        simpa using hasDerivAt_pow 2 (x i)
      · simp only [update_of_ne hi, if_neg hi]
        exact hasDerivAt_const _ _
    have h4 := (HasDerivAt.fun_sum fun i (_ : i ∈ Finset.univ) => h3 i).const_mul ρ
    rw [Finset.sum_ite_eq' Finset.univ k, if_pos (Finset.mem_univ k)] at h4
    exact h4.congr_deriv (by ring)
  have h5 := (hg k).fun_add h2
  beta_reduce at h5
  simpa only [sub_add_cancel] using h5

/-- A penalised logit log-likelihood has at most one stationary point where no utility is clipped, given the coefficients
held fixed, if the penalty is positive or no direction moves the utilities of every observation alike. -/
theorem stationary_unique (ha : ∀ r, 0 ≤ a r) {ρ : ℝ} (hρ : 0 ≤ ρ) {x x' g g' : K → ℝ}
    (hx : ∀ r, |(X *ᵥ x) r| < 700) (hx' : ∀ r, |(X *ᵥ x') r| < 700)
    (hg : HasPartials (fun θ => clippedLogLik f a (X *ᵥ θ) - ρ * ∑ k, θ k ^ 2) g x)
    (hg' : HasPartials (fun θ => clippedLogLik f a (X *ᵥ θ) - ρ * ∑ k, θ k ^ 2) g' x')
    (h : ∀ k, x k = x' k ∨ (g k = 0 ∧ g' k = 0))
    (hid : 0 < ρ ∨ ∀ v, (∀ r s t, 0 < a r → f s = f r → f t = f r → (X *ᵥ v) s = (X *ᵥ v) t) → v = 0) :
    x' = x := by
  have p := unpenalised hg
  have p' := unpenalised hg'
  rcases hρ.lt_or_eq with h0 | h0
  · have key : ∀ {y y' e : K → ℝ}, (∀ r, |(X *ᵥ y) r| < 700) →
        HasPartials (fun θ => clippedLogLik f a (X *ᵥ θ)) (fun k => e k + 2 * ρ * y k) y →
        (∀ k, y k = y' k ∨ e k = 0) →
        logitLogLik f a (X *ᵥ y') ≤ logitLogLik f a (X *ᵥ y) + ∑ k, 2 * ρ * y k * (y' k - y k) := by
      intro y y' e hy he hz
      have h1 := Sep.logLik_tangent (f := f) ha (X *ᵥ y) (X *ᵥ y')
      have h2 := Sep.partials_along hy he (y' - y)
      rw [Matrix.mulVec_sub] at h2
      refine h1.trans_eq (congrArg _ (h2.symm.trans (Finset.sum_congr rfl fun k _ => ?_)))
      rcases hz k with hk | hk
      · simp [hk]
      · rw [hk]; simp
    have k1 := key hx p fun k => (h k).imp id And.left
    have k2 := key (y' := x) hx' p' fun k => (h k).imp Eq.symm And.right
    have k3 : 2 * ρ * ∑ k, (x' k - x k) ^ 2 ≤ 0 := by
      have e : 2 * ρ * ∑ k, (x' k - x k) ^ 2 =
          -(∑ k, 2 * ρ * x k * (x' k - x k) + ∑ k, 2 * ρ * x' k * (x k - x' k)) := by
        rw [Finset.mul_sum, ← Finset.sum_add_distrib, ← Finset.sum_neg_distrib]
        exact Finset.sum_congr rfl fun k _ => by ring
      rw [e]; linarith
    have k4 : ∑ k, (x' k - x k) ^ 2 = 0 :=
      le_antisymm (by nlinarith) (Finset.sum_nonneg fun k _ => sq_nonneg _)
    funext k
    have := (Finset.sum_eq_zero_iff_of_nonneg fun k _ => sq_nonneg (x' k - x k)).1 k4 k (Finset.mem_univ k)
    exact sub_eq_zero.1 (pow_eq_zero_iff two_ne_zero |>.1 this)
  · have hid' := hid.resolve_left (by rw [← h0]; exact lt_irrefl 0)
    subst h0
    simp only [mul_zero, zero_mul, add_zero] at p p'
    have q := (stationary_iff_estimate ha (Finset.univ.toList.filter fun k => x k = x' k) hx p).1 fun k hk =>
      ((h k).resolve_left fun e => hk (by simpa using e)).1
    have q' := (stationary_iff_estimate ha (Finset.univ.toList.filter fun k => x k = x' k) hx' p').1 fun k hk =>
      ((h k).resolve_left fun e => hk (by simpa using e)).2
    have hfix : ∀ i ∈ (Finset.univ.toList.filter fun k => x k = x' k), x i = x' i := fun i hi => by simpa using hi
    refine (logit_estimate_unique ha q ⟨fun i hi => (hfix i hi).symm, fun y hy => q'.2 y fun i hi => ?_⟩).2.2 hid'
    rw [hy i hi, hfix i hi]

/-! ## Results that are the same -/

private lemma ofFn_heq {α : Type} {n n' : ℕ} (hn : n' = n) {g : Fin n → α} {g' : Fin n' → α}
    (h : List.ofFn g' = List.ofFn g) : HEq g' g := by
  subst hn
  rw [List.ofFn_injective h]

private lemma ofFn2_heq {n n' : ℕ} (hn : n' = n) {g : Matrix (Fin n) (Fin n) ℝ} {g' : Matrix (Fin n') (Fin n') ℝ}
    (h : (List.ofFn fun i => List.ofFn (g' i)) = List.ofFn fun i => List.ofFn (g i)) : HEq g' g := by
  subst hn
  have h1 := List.ofFn_injective h
  refine heq_of_eq ?_
  funext i
  exact List.ofFn_injective (congrFun h1 i)

private lemma results_eq {r r' : FitResults} (hn : r'.n = r.n) (hsp : r'.split = r.split)
    (hg : List.ofFn r'.gradient = List.ofFn r.gradient)
    (hH : (List.ofFn fun i => List.ofFn (r'.hessian i)) = List.ofFn fun i => List.ofFn (r.hessian i))
    (hF : (List.ofFn fun i => List.ofFn (r'.fisher i)) = List.ofFn fun i => List.ofFn (r.fisher i))
    (hcon : r'.constrained = r.constrained) (h1 : r'.finalLL = r.finalLL) (h2 : r'.nullLL = r.nullLL)
    (h3 : r'.rhoSq = r.rhoSq) (h4 : r'.rhoBarSq = r.rhoBarSq) :
    r' = { r with
      chosenProbs := r'.chosenProbs, longProbs := r'.longProbs, residuals := r'.residuals, indChi := r'.indChi
      success := r'.success, message := r'.message } := by
  have eg := ofFn_heq hn hg
  have eH := ofFn2_heq hn hH
  have eF := ofFn2_heq hn hF
  obtain ⟨n, sp, g, H, F, c, l1, l2, l3, l4, su, me, cp, lp, rs, ic⟩ := r
  obtain ⟨n', sp', g', H', F', c', l1', l2', l3', l4', su', me', cp', lp', rs', ic'⟩ := r'
  simp only at hn hsp hcon h1 h2 h3 h4 eg eH eF
  subst hn hsp hcon h1 h2 h3 h4
  obtain rfl := eq_of_heq eg
  obtain rfl := eq_of_heq eH
  obtain rfl := eq_of_heq eF
  rfl

/-- What a call of `fit_mle` of a multinomial logit stored. -/
private lemma stored_results {m : ChoiceModel ℝ} (hcls : m.cls = .mnl) {solver : Solver} {label : PyVal ℝ → String} {sf : ℝ → ℝ}
    {before after : List FitCall} {args : FitArgs} (hpoint : args.justPoint = false)
    (hst : (fitCall sf (mnlFitCall solver m args) (fitCalls sf before (freshFit label m))).2 = none)
    (hafter : ∀ d ∈ after, ∀ r, d.outcome ≠ .results r) :
    ∃ r, mnlFit solver m args = .ok r ∧ r.constrained = args.constrained ∧
      r.split = ⟨none, none, none, r.split.index⟩ ∧ (storeFitResults sf r (freshFit label m).attrs).2 = none ∧
      (fitCalls sf (before ++ mnlFitCall solver m args :: after) (freshFit label m)).attrs =
        (storeFitResults sf r (freshFit label m).attrs).1 := by
  obtain ⟨r, hr⟩ : ∃ r, (mnlFitCall solver m args).outcome = .results r := by
    unfold mnlFitCall at hst ⊢
    rw [hpoint] at hst ⊢
    cases hf : mnlFit solver m args with
    | error e => simp [hf, fitOutcome, fitCall] at hst
    | ok r => exact ⟨r, by simp [fitOutcome]⟩
  obtain ⟨ht, ht2⟩ := fits_latest sf before after _ r (freshFit label m) hr hst hafter
  refine ⟨r, outcome_ok hr, and_assoc.1 ⟨?_, ht2, ht⟩⟩
  obtain ⟨x₀, hrows, -, -, -, hrun⟩ := mnl_run (outcome_ok hr)
  unfold runEstimation runEstimationWith at hrun
  simp only [bind, Except.bind] at hrun
  split at hrun
  · cases hrun
  split at hrun
  · cases hrun
  split at hrun
  · cases hrun
  cases hrun
  exact ⟨rfl, by rw [hcls]; rfl⟩

private lemma second_unique {n : ℕ} {F : (Fin n → ℝ) → ℝ} {H H' : Matrix (Fin n) (Fin n) ℝ} {x : Fin n → ℝ}
    (h : HasSecondPartials F H x) (h' : HasSecondPartials F H' x) : H' = H := by
  ext i j
  exact (h' i j).unique (h i j)

private lemma ids_of (df : Frame ℝ) (c : String) : AltsOf df c (npUnique (df.colList c)) :=
  ⟨npUnique_strict _, fun a => by rw [mem_npUnique, Frame.colList, List.mem_ofFn]⟩

/-- Two fits on the same data, whose rows may be in another order and whose observations may have other numbers, that
stopped at stationary points. -/
private lemma two_fits {env env' : Env ℝ} {ty ty' : String} {df df' : Frame ℝ} {a a' : ModelArgs ℝ}
    {m m' : ChoiceModel ℝ}
    (hm : createChoiceModel env ty df a = .ok m) (hm' : createChoiceModel env' ty' df' a' = .ok m')
    (hcls : m.cls = .mnl) (hcls' : m'.cls = .mnl) {s : List (String × SpecVal ℝ)}
    (hspec : m.args.specification = encodeAll s) (hkeys : (s.map Prod.fst).Nodup)
    (hnm : ∀ ns, m.args.names = some ns → (ns.map Prod.fst).Nodup)
    {alts ids ids' : List ℝ} (ha : AltsOf m.data m.args.altIdCol alts) (ha' : AltsOf m'.data m.args.altIdCol alts)
    (hids : AltsOf m.data m.args.obsIdCol ids) (hids' : AltsOf m'.data m.args.obsIdCol ids')
    {chosen : ℝ → Fin m.data.numRows} (hc : OneChoicePerObs m.data m.args.obsIdCol m.args.choiceCol chosen)
    {chosen' : ℝ → Fin m'.data.numRows} (hc' : OneChoicePerObs m'.data m.args.obsIdCol m.args.choiceCol chosen')
    (hargs : m'.args = m.args) (hnames : m'.indVarNames = m.indVarNames)
    (σ : Fin m'.data.numRows ≃ Fin m.data.numRows)
    (hch : ∀ r, m'.data.val m.args.choiceCol r = m.data.val m.args.choiceCol (σ r))
    {lab : ℝ → ℝ} (hlab : Injective lab)
    (hob : ∀ r, m'.data.val m.args.obsIdCol r = lab (m.data.val m.args.obsIdCol (σ r)))
    (hrow : ∀ beta r, rowIndex m'.data m.args.altIdCol (specColumns alts s) beta r =
      rowIndex m.data m.args.altIdCol (specColumns alts s) beta (σ r))
    {solver solver' : Solver} (hsol : FaithfulSolver solver) (hsol' : FaithfulSolver solver')
    (label : PyVal ℝ → String) (sf : ℝ → ℝ) (before after before' after' : List FitCall) (args args' : FitArgs)
    (hpoint : args.justPoint = false) (hpoint' : args'.justPoint = false)
    (hst : (fitCall sf (mnlFitCall solver m args) (fitCalls sf before (freshFit label m))).2 = none)
    (hst' : (fitCall sf (mnlFitCall solver' m' args') (fitCalls sf before' (freshFit label m'))).2 = none)
    (hafter : ∀ d ∈ after, ∀ r, d.outcome ≠ .results r) (hafter' : ∀ d ∈ after', ∀ r, d.outcome ≠ .results r)
    (hridge : 0 ≤ args.ridge.getD 0) (hr : args'.ridge = args.ridge) (hcon : args'.constrained = args.constrained)
    {x x' : Fin (specColumns alts s).length → ℝ}
    (hx : StoppedAt m.data m.args.altIdCol (specColumns alts s) args.constrained x
      (fitCalls sf (before ++ mnlFitCall solver m args :: after) (freshFit label m)).attrs)
    (hx' : StoppedAt m'.data m.args.altIdCol (specColumns alts s) args.constrained x'
      (fitCalls sf (before' ++ mnlFitCall solver' m' args' :: after') (freshFit label m')).attrs)
    (hfix : ∀ i, (∃ z ∈ args.constrained.getD [], PosIs _ z i) → x i = x' i) :
    let t := (fitCalls sf (before ++ mnlFitCall solver m args :: after) (freshFit label m)).attrs
    let t' := (fitCalls sf (before' ++ mnlFitCall solver' m' args' :: after') (freshFit label m')).attrs
    ∃ labels, SameInference t t' ∧ x' = x ∧
      FitReport (tableOf m ids) args.ridge
        (fun (θ : Fin (specColumns alts s).length → ℝ) r => rowIndex m.data m.args.altIdCol (specColumns alts s) (List.ofFn θ) r)
        labels x t ∧
      FitReport (tableOf m' ids') args.ridge
        (fun (θ : Fin (specColumns alts s).length → ℝ) r => rowIndex m'.data m.args.altIdCol (specColumns alts s) (List.ofFn θ) r)
        labels x t' ∧
      ∀ r, (tableOf m' ids').prob
          (fun r => rowIndex m'.data m.args.altIdCol (specColumns alts s) (List.ofFn x) r) r =
        (tableOf m ids).prob
          (fun r => rowIndex m.data m.args.altIdCol (specColumns alts s) (List.ofFn x) r) (σ r) := by
  intro t t'
  obtain ⟨n, z, labels, H, F, hn, hl, -, hrep, -, hder, hinf, -⟩ :=
    mnl_fit_report hm hcls hspec ha hids hc hsol label sf before after args hpoint hst hafter
  obtain rfl : n = _ := hn
  obtain ⟨n', z', labels', H', F', hn', hl', -, hrep', -, hder', hinf', -⟩ :=
    mnl_fit_report (s := s) (alts := alts) (ids := ids') hm' hcls' (by rw [hargs]; exact hspec) (by rw [hargs]; exact ha')
      (by rw [hargs]; exact hids') (chosen := chosen') (by rw [hargs]; exact hc') hsol' label sf before' after' args' hpoint' hst' hafter'
  obtain rfl : n' = _ := hn'
  rw [hr] at hrep' hder' hinf'
  have eU' : (fun (θ : Fin (specColumns alts s).length → ℝ) r =>
      rowIndex m'.data m'.args.altIdCol (specColumns alts s) (List.ofFn θ) r) =
      fun θ r => rowIndex m'.data m.args.altIdCol (specColumns alts s) (List.ofFn θ) r := by rw [hargs]
  rw [eU'] at hrep' hder'
  set U : (Fin (specColumns alts s).length → ℝ) → Fin m.data.numRows → ℝ :=
    fun θ r => rowIndex m.data m.args.altIdCol (specColumns alts s) (List.ofFn θ) r with hU
  set U' : (Fin (specColumns alts s).length → ℝ) → Fin m'.data.numRows → ℝ :=
    fun θ r => rowIndex m'.data m.args.altIdCol (specColumns alts s) (List.ofFn θ) r with hU'
  have eU : ∀ θ r, U' θ r = U θ (σ r) := fun θ r => hrow _ r
  -- where the fits stopped
  obtain ⟨⟨_, hx1⟩, ⟨_, g0, hx2, hx3⟩, hx4⟩ := hx
  obtain ⟨⟨_, hx1'⟩, ⟨_, g0', hx2', hx3'⟩, hx4'⟩ := hx'
  have hxz : z = x := by
    have := hrep.statistics.params.symm.trans hx1
    simp only [Option.some.injEq, Series.mk.injEq] at this
    exact List.ofFn_injective this.2
  have hxz' : z' = x' := by
    have := hrep'.statistics.params.symm.trans hx1'
    simp only [Option.some.injEq, Series.mk.injEq] at this
    exact List.ofFn_injective this.2
  subst hxz hxz'
  obtain ⟨⟨⟨g, hg, hp⟩, S, hS, hF⟩, hH⟩ := hder hx4
  obtain ⟨⟨⟨g', hg', hp'⟩, S', hS', hF'⟩, hH'⟩ := hder' hx4'
  obtain rfl : g = g0 := by
    have := hg.symm.trans hx2
    simp only [Option.some.injEq, Series.mk.injEq] at this
    exact List.ofFn_injective this.2
  obtain rfl : g' = g0' := by
    have := hg'.symm.trans hx2'
    simp only [Option.some.injEq, Series.mk.injEq] at this
    exact List.ofFn_injective this.2
  -- the two log-likelihoods are the same function
  have hprob : ∀ (θ : Fin (specColumns alts s).length → ℝ) r,
      (tableOf m' ids').prob (U' θ) r = (tableOf m ids).prob (U θ) (σ r) := fun θ r => by
    have e : U' θ = fun r => U θ (σ r) := funext (eU θ)
    unfold LongData.prob
    rw [e]
    refine clippedLogit_same σ (f := m.data.val m.args.obsIdCol) (f' := m'.data.val m'.args.obsIdCol) (fun r s => ?_) (U θ) r
    rw [hargs, hob, hob]
    exact hlab.eq_iff
  have hy : ∀ r, (tableOf m' ids').y r = (tableOf m ids).y (σ r) := fun r => by
    change m'.data.val m'.args.choiceCol r = _
    rw [hargs]
    exact hch r
  have hLL : ∀ ridge θ, (tableOf m' ids').logLik ridge U' θ = (tableOf m ids).logLik ridge U θ := fun ridge θ => by
    unfold LongData.logLik
    congr 1
    exact Fintype.sum_equiv σ _ _ fun r => congrArg₂ (· * ·) (hy r) (congrArg Real.log (hprob θ r))
  have hLL' : ∀ ridge, (tableOf m' ids').logLik ridge U' = (tableOf m ids).logLik ridge U := fun ridge =>
    funext (hLL ridge)
  rw [hLL'] at hp' hH'
  -- the estimates
  have hfits := stored_results hcls (after := after) hpoint hst hafter
  have hfits' := stored_results hcls' (after := after') hpoint' hst' hafter'
  obtain ⟨r, hmf, hrc, hsp, hs2, htr⟩ := hfits
  obtain ⟨r', hmf', hrc', hsp', hs2', htr'⟩ := hfits'
  have hid := (mnl_fit_stores_iff hm hcls hspec hkeys hnm ha hc label sf before args hpoint hridge hmf).1 hst
  have eD : ∀ θ : Fin (specColumns alts s).length → ℝ,
      describedMatrix m.data m.args.altIdCol (specColumns alts s) (specColumns alts s).length *ᵥ θ = U θ :=
    fun θ => described_dot rfl θ
  have hxx : z' = z := by
    have e1 : (tableOf m ids).logLik args.ridge U = fun θ => clippedLogLik (m.data.val m.args.obsIdCol)
        (m.data.val m.args.choiceCol)
        (describedMatrix m.data m.args.altIdCol (specColumns alts s) (specColumns alts s).length *ᵥ θ) -
        args.ridge.getD 0 * ∑ k, θ k ^ 2 := by
      funext θ
      rw [eD]
      rfl
    have p1 := hp
    have p2 := hp'
    rw [e1] at p1 p2
    refine stationary_unique (fun r => choices_nonneg hc r) hridge (fun r => by rw [eD]; exact hx4 r)
      (fun r => ?_) p1 p2 (fun k => ?_) (hid.imp id fun hI v hv => hI v fun r q hrq => ?_)
    · rw [eD]
      have := hx4' (σ.symm r)
      rw [hrow, σ.apply_symm_apply] at this
      exact this
    · by_cases hk : ∃ z ∈ args.constrained.getD [], PosIs _ z k
      · exact .inl (hfix k hk)
      · push Not at hk
        exact .inr ⟨hx3 k hk, hx3' k hk⟩
    · have := hv (chosen (m.data.val m.args.obsIdCol r)) r q (by rw [hc.one]; exact one_pos) (hc.mem _).symm
        (hrq.symm.trans (hc.mem _).symm)
      rw [eD] at this
      exact this
  subst hxx
  -- the derivatives
  have hgg : g' = g := funext fun i => (hp' i).unique (hp i)
  have hHH : H' = H := second_unique hH hH'
  have hFF : F' = F := by
    ext i j
    rw [hF, hF']
    congr 1
    refine Fintype.sum_equiv σ _ _ fun q => ?_
    by_cases h1 : (tableOf m ids).y (σ q) = 1
    · have e : S' q = S (σ q) := by
        have e1 : (fun θ : Fin (specColumns alts s).length → ℝ => Real.log ((tableOf m' ids').prob (U' θ) q)) =
            fun θ => Real.log ((tableOf m ids).prob (U θ) (σ q)) := funext fun θ => congrArg Real.log (hprob θ q)
        have d1 := hS' q ((hy q).trans h1)
        have d2 := hS (σ q) h1
        rw [e1] at d1
        exact funext fun k => (d1 k).unique (d2 k)
      exact congrArg₂ (· * ·) (hy q) (congrArg₂ (· * ·) (congrFun e i) (congrFun e j))
    · have h0 : (tableOf m ids).y (σ q) = 0 := by
        by_contra h
        refine h (hc.zero _ fun e => h1 ?_)
        change m.data.val m.args.choiceCol (σ q) = 1
        rw [e, hc.one]
      exact (mul_eq_zero_of_left ((hy q).trans h0) _).trans (mul_eq_zero_of_left h0 _).symm
  subst hgg hHH hFF
  -- the labels, the observations and the null log-likelihood
  obtain rfl : labels = labels' := List.ofFn_injective (hl.trans (by rw [hl', hnames]))
  have hlen : ids'.length = ids.length := by
    have n1 : ids.Nodup := hids.ascending.imp ne_of_lt
    have n2 : ids'.Nodup := hids'.ascending.imp ne_of_lt
    rw [← List.toFinset_card_of_nodup n1, ← List.toFinset_card_of_nodup n2, ← Finset.card_image_of_injective ids.toFinset hlab]
    congr 1
    ext o
    simp only [List.mem_toFinset, Finset.mem_image, hids.mem, hids'.mem]
    constructor
    · rintro ⟨q, rfl⟩
      exact ⟨_, ⟨σ q, rfl⟩, (hob q).symm⟩
    · rintro ⟨_, ⟨q, rfl⟩, rfl⟩
      exact ⟨σ.symm q, by rw [hob, σ.apply_symm_apply]⟩
  have hnull : (tableOf m' ids').equalShares = (tableOf m ids).equalShares := by
    unfold LongData.equalShares
    refine Fintype.sum_equiv σ _ _ fun q => ?_
    refine congrArg₂ (· * ·) (hy q) (congrArg (fun n : ℕ => Real.log (1 / n)) ?_)
    refine Finset.card_equiv σ fun q' => ?_
    have w : ∀ (D : LongData) i q, q ∈ D.rows i ↔ D.df.val D.obsCol q = i := fun D i q => by simp [LongData.rows]
    have w' : ∀ q q', m'.data.val m'.args.obsIdCol q' = m'.data.val m'.args.obsIdCol q ↔
        m.data.val m.args.obsIdCol (σ q') = m.data.val m.args.obsIdCol (σ q) := fun q q' => by
      rw [hargs, hob, hob, hlab.eq_iff]
    exact (w (tableOf m' ids') _ q').trans ((w' q q').trans (w (tableOf m ids) _ (σ q')).symm)
  -- the results
  have k := store_holds sf r _ hs2
  have k' := store_holds sf r' _ hs2'
  rw [← htr] at k
  rw [← htr'] at k'
  obtain ⟨k1, k2, k3, k4, k5, k6, k7, k8, k9, -⟩ := k
  obtain ⟨k1', k2', k3', k4', k5', k6', k7', k8', k9', -⟩ := k'
  have c1 := hrep.statistics
  have c1' := hrep'.statistics
  rw [hLL', hnull] at c1'
  have i1 := hinf hridge
  have i1' := hinf' hridge
  have E1 : List.ofFn r'.gradient = List.ofFn r.gradient := by
    have a1 := k2.symm.trans hg
    have a2 := k2'.symm.trans hg'
    simp only [Option.some.injEq, Series.mk.injEq] at a1 a2
    rw [a1.2, a2.2]
  have E2 : r'.split = r.split := by
    have a1 := k1.symm.trans c1.params
    have a2 := k1'.symm.trans c1'.params
    simp only [Option.some.injEq, Series.mk.injEq] at a1 a2
    have b1 := a1.2
    have b2 := a2.2
    unfold allParams at b1 b2
    rw [hsp] at b1
    rw [hsp'] at b2
    rw [hsp, hsp']
    simp only [Option.getD_none, List.nil_append] at b1 b2
    rw [b1, b2]
  have E3 : (List.ofFn fun i => List.ofFn (r'.hessian i)) = List.ofFn fun i => List.ofFn (r.hessian i) := by
    have a1 := k3.symm.trans i1.hessian
    have a2 := k3'.symm.trans i1'.hessian
    simp only [Option.some.injEq, LabelledMatrix.mk.injEq] at a1 a2
    rw [a1.2, a2.2]
  have E4 : (List.ofFn fun i => List.ofFn (r'.fisher i)) = List.ofFn fun i => List.ofFn (r.fisher i) := by
    have a1 := k4.symm.trans i1.fisher
    have a2 := k4'.symm.trans i1'.fisher
    simp only [Option.some.injEq, LabelledMatrix.mk.injEq] at a1 a2
    rw [a1.2, a2.2]
  have E5 : r'.finalLL = r.finalLL :=
    Option.some.inj ((k5'.symm.trans c1'.logLik).trans (k5.symm.trans c1.logLik).symm)
  have E6 : r'.nullLL = r.nullLL :=
    Option.some.inj ((k6'.symm.trans c1'.nullLL).trans (k6.symm.trans c1.nullLL).symm)
  have E7 : r'.rhoSq = r.rhoSq :=
    Option.some.inj ((k7'.symm.trans c1'.rhoSq).trans (k7.symm.trans c1.rhoSq).symm)
  have E8 : r'.rhoBarSq = r.rhoBarSq :=
    Option.some.inj ((k8'.symm.trans c1'.rhoBarSq).trans (k8.symm.trans c1.rhoBarSq).symm)
  have E9 : r'.chosenProbs.length = r.chosenProbs.length := by
    have b1 := Option.some.inj (k9.symm.trans c1.nobs)
    have b2 := Option.some.inj (k9'.symm.trans c1'.nobs)
    exact b2.trans (hlen.trans b1.symm)
  have En : r'.n = r.n := by simpa using congrArg List.length E1
  have Er := results_eq En E2 E1 E3 E4 (hrc'.trans (hcon.trans hrc.symm)) E5 E6 E7 E8
  have Es := store_exchange sf r _ hs2 (lp := r'.longProbs) (rs := r'.residuals) (ic := r'.indChi) E9 r'.success r'.message
  rw [← Er] at Es
  have Ef : (freshFit label m').attrs = (freshFit label m).attrs := by
    simp only [freshFit, modelNames, hargs, hnames]
  have Ec : some (r'.indChi.map List.sum).sum = t.chiSquare := by
    have b1 := hrep.probabilities.chiSquare
    have b2 := hrep'.probabilities.chiSquare
    rw [htr', (store_holds sf r' _ hs2').2.2.2.2.2.2.2.2.2.2.2.2.2] at b2
    rw [b2]
    refine Eq.trans ?_ b1.symm
    refine congrArg some (Fintype.sum_equiv σ _ _ fun q => ?_)
    exact congrArg₂ (· / ·) (congrArg (· ^ 2) (congrArg₂ (· - ·) (hy q) (hprob _ q))) (hprob _ q)
  refine ⟨labels, ⟨r'.success, r'.message, some r'.chosenProbs, some r'.longProbs, some r'.residuals, some r'.indChi, ?_⟩,
    rfl, hrep, hrep', fun q => hprob _ q⟩
  have Es' := congrArg Prod.fst Es
  simp only at Es'
  rw [Ec] at Es'
  change (fitCalls sf (before' ++ mnlFitCall solver' m' args' :: after') (freshFit label m')).attrs = _
  rw [htr', Ef, Es']
  simp only [t, htr]

/-- A fit that stopped at a maximum of the log-likelihood, where no utility is clipped, stopped at a stationary point. -/
private lemma max_stopped {env : Env ℝ} {ty : String} {df : Frame ℝ} {a : ModelArgs ℝ} {m : ChoiceModel ℝ}
    (hm : createChoiceModel env ty df a = .ok m) (hcls : m.cls = .mnl) {s : List (String × SpecVal ℝ)}
    (hspec : m.args.specification = encodeAll s) {alts ids : List ℝ} (ha : AltsOf m.data m.args.altIdCol alts)
    (hids : AltsOf m.data m.args.obsIdCol ids) {chosen : ℝ → Fin m.data.numRows}
    (hc : OneChoicePerObs m.data m.args.obsIdCol m.args.choiceCol chosen)
    {solver : Solver} (hsol : FaithfulSolver solver) (label : PyVal ℝ → String) (sf : ℝ → ℝ)
    (before after : List FitCall) (args : FitArgs) (hpoint : args.justPoint = false)
    (hst : (fitCall sf (mnlFitCall solver m args) (fitCalls sf before (freshFit label m))).2 = none)
    (hafter : ∀ d ∈ after, ∀ r, d.outcome ≠ .results r) {x : Fin (specColumns alts s).length → ℝ}
    (hx : ∃ labels, (fitCalls sf (before ++ mnlFitCall solver m args :: after) (freshFit label m)).attrs.params =
      some ⟨labels, List.ofFn x⟩)
    (hb : ∀ r, |rowIndex m.data m.args.altIdCol (specColumns alts s) (List.ofFn x) r| < 700)
    (hmax : MinimisingSolver solver ∨ ∀ y, (tableOf m ids).logLik args.ridge (fun (θ : Fin (specColumns alts s).length → ℝ) r =>
        rowIndex m.data m.args.altIdCol (specColumns alts s) (List.ofFn θ) r) y ≤
      (tableOf m ids).logLik args.ridge (fun (θ : Fin (specColumns alts s).length → ℝ) r =>
        rowIndex m.data m.args.altIdCol (specColumns alts s) (List.ofFn θ) r) x) (con : Option (List ℤ)) :
    StoppedAt m.data m.args.altIdCol (specColumns alts s) con x
      (fitCalls sf (before ++ mnlFitCall solver m args :: after) (freshFit label m)).attrs := by
  obtain ⟨n, z, labels, H, F, hn, hl, -, hrep, hmx, hder, hinf, -⟩ :=
    mnl_fit_report hm hcls hspec ha hids hc hsol label sf before after args hpoint hst hafter
  obtain rfl : n = _ := hn
  obtain ⟨ls, hx⟩ := hx
  obtain rfl : z = x := by
    have := hrep.statistics.params.symm.trans hx
    simp only [Option.some.injEq, Series.mk.injEq] at this
    exact List.ofFn_injective this.2
  obtain ⟨⟨⟨g, hg, hp⟩, -⟩, -⟩ := hder hb
  refine ⟨⟨_, hx⟩, ⟨_, g, hg, fun i _ => ?_⟩, hb⟩
  have hmax' := hmax.elim hmx id
  refine IsLocalMax.hasDerivAt_eq_zero (Filter.Eventually.of_forall fun t => ?_) (hp i)
  have := hmax' (update z i t)
  simpa only [update_eq_self] using this

/-! ## C121 -/

/-- **C121** (one table). Fit a multinomial logit model twice, in any two histories of fits, with any two optimisers and
from any two starting points, with the same ridge penalty, which is not negative, and the same positions held fixed.  If
both fits stored their results and stopped where the gradient they stored is zero except at the fixed positions, no
utility is clipped, and the fixed coefficients agree, then the two model objects hold the same results, all of them,
except for what the optimisers said about themselves. -/
theorem mnl_fits_agree {env : Env ℝ} {ty : String} {df : Frame ℝ} {a : ModelArgs ℝ} {m : ChoiceModel ℝ}
    (hm : createChoiceModel env ty df a = .ok m) (hcls : m.cls = .mnl) {s : List (String × SpecVal ℝ)}
    (hspec : m.args.specification = encodeAll s) (hkeys : (s.map Prod.fst).Nodup)
    (hnm : ∀ ns, m.args.names = some ns → (ns.map Prod.fst).Nodup)
    {alts : List ℝ} (ha : AltsOf m.data m.args.altIdCol alts)
    {chosen : ℝ → Fin m.data.numRows} (hc : OneChoicePerObs m.data m.args.obsIdCol m.args.choiceCol chosen)
    {solver solver' : Solver} (hsol : FaithfulSolver solver) (hsol' : FaithfulSolver solver')
    (label : PyVal ℝ → String) (sf : ℝ → ℝ) (before after before' after' : List FitCall) (args args' : FitArgs)
    (hpoint : args.justPoint = false) (hpoint' : args'.justPoint = false)
    (hst : (fitCall sf (mnlFitCall solver m args) (fitCalls sf before (freshFit label m))).2 = none)
    (hst' : (fitCall sf (mnlFitCall solver' m args') (fitCalls sf before' (freshFit label m))).2 = none)
    (hafter : ∀ d ∈ after, ∀ r, d.outcome ≠ .results r) (hafter' : ∀ d ∈ after', ∀ r, d.outcome ≠ .results r)
    (hridge : 0 ≤ args.ridge.getD 0) (hr : args'.ridge = args.ridge) (hcon : args'.constrained = args.constrained)
    {x x' : Fin (specColumns alts s).length → ℝ}
    (hx : StoppedAt m.data m.args.altIdCol (specColumns alts s) args.constrained x
      (fitCalls sf (before ++ mnlFitCall solver m args :: after) (freshFit label m)).attrs)
    (hx' : StoppedAt m.data m.args.altIdCol (specColumns alts s) args.constrained x'
      (fitCalls sf (before' ++ mnlFitCall solver' m args' :: after') (freshFit label m)).attrs)
    (hfix : ∀ i, (∃ z ∈ args.constrained.getD [], PosIs _ z i) → x i = x' i) :
    SameResults (fitCalls sf (before ++ mnlFitCall solver m args :: after) (freshFit label m)).attrs
      (fitCalls sf (before' ++ mnlFitCall solver' m args' :: after') (freshFit label m)).attrs := by
  obtain ⟨labels, ⟨ok, msg, fp, lp, lr, ic, h⟩, rfl, h1, h2, -⟩ :=
    two_fits hm hm hcls hcls hspec hkeys hnm ha ha (ids := npUnique (m.data.colList m.args.obsIdCol))
      (ids' := npUnique (m.data.colList m.args.obsIdCol)) (ids_of _ _) (ids_of _ _) hc hc rfl rfl (Equiv.refl _) (fun _ => rfl)
      (lab := id) injective_id (fun _ => rfl) (fun _ _ => rfl) hsol hsol' label sf before after before' after' args args' hpoint
      hpoint' hst hst' hafter hafter' hridge hr hcon hx hx' hfix
  replace h1 := h1.probabilities
  replace h2 := h2.probabilities
  generalize (fitCalls sf (before ++ mnlFitCall solver m args :: after) (freshFit label m)).attrs = t at *
  generalize (fitCalls sf (before' ++ mnlFitCall solver' m args' :: after') (freshFit label m)).attrs = t' at *
  subst h
  obtain rfl : fp = _ := h2.fittedProbs.trans h1.fittedProbs.symm
  obtain rfl : lp = _ := h2.longProbs.trans h1.longProbs.symm
  obtain rfl : lr = _ := h2.residuals.trans h1.residuals.symm
  obtain rfl : ic = _ := h2.indChi.trans h1.indChi.symm
  exact ⟨ok, msg, rfl⟩

/-- **C121** (global optimisers). The same for two optimisers that return global minima of what they are given, and
fits without fixed positions in which no utility is clipped. -/
theorem mnl_global_fits_agree {env : Env ℝ} {ty : String} {df : Frame ℝ} {a : ModelArgs ℝ} {m : ChoiceModel ℝ}
    (hm : createChoiceModel env ty df a = .ok m) (hcls : m.cls = .mnl) {s : List (String × SpecVal ℝ)}
    (hspec : m.args.specification = encodeAll s) (hkeys : (s.map Prod.fst).Nodup)
    (hnm : ∀ ns, m.args.names = some ns → (ns.map Prod.fst).Nodup)
    {alts : List ℝ} (ha : AltsOf m.data m.args.altIdCol alts)
    {chosen : ℝ → Fin m.data.numRows} (hc : OneChoicePerObs m.data m.args.obsIdCol m.args.choiceCol chosen)
    {solver solver' : Solver} (hsol : FaithfulSolver solver) (hsol' : FaithfulSolver solver')
    (hmin : MinimisingSolver solver) (hmin' : MinimisingSolver solver')
    (label : PyVal ℝ → String) (sf : ℝ → ℝ) (before after before' after' : List FitCall) (args args' : FitArgs)
    (hpoint : args.justPoint = false) (hpoint' : args'.justPoint = false)
    (hst : (fitCall sf (mnlFitCall solver m args) (fitCalls sf before (freshFit label m))).2 = none)
    (hst' : (fitCall sf (mnlFitCall solver' m args') (fitCalls sf before' (freshFit label m))).2 = none)
    (hafter : ∀ d ∈ after, ∀ r, d.outcome ≠ .results r) (hafter' : ∀ d ∈ after', ∀ r, d.outcome ≠ .results r)
    (hridge : 0 ≤ args.ridge.getD 0) (hr : args'.ridge = args.ridge)
    (hcon : args.constrained = none) (hcon' : args'.constrained = none) {x x' : Fin (specColumns alts s).length → ℝ}
    (hx : ∃ labels, (fitCalls sf (before ++ mnlFitCall solver m args :: after) (freshFit label m)).attrs.params =
      some ⟨labels, List.ofFn x⟩)
    (hx' : ∃ labels, (fitCalls sf (before' ++ mnlFitCall solver' m args' :: after') (freshFit label m)).attrs.params =
      some ⟨labels, List.ofFn x'⟩)
    (hb : ∀ r, |rowIndex m.data m.args.altIdCol (specColumns alts s) (List.ofFn x) r| < 700)
    (hb' : ∀ r, |rowIndex m.data m.args.altIdCol (specColumns alts s) (List.ofFn x') r| < 700) :
    SameResults (fitCalls sf (before ++ mnlFitCall solver m args :: after) (freshFit label m)).attrs
      (fitCalls sf (before' ++ mnlFitCall solver' m args' :: after') (freshFit label m)).attrs :=
  mnl_fits_agree hm hcls hspec hkeys hnm ha hc hsol hsol' label sf before after before' after' args args' hpoint hpoint' hst
    hst' hafter hafter' hridge hr (hcon'.trans hcon.symm)
    (max_stopped hm hcls hspec ha (ids_of _ _) hc hsol label sf before after args hpoint hst hafter hx hb (.inl hmin) _)
    (max_stopped hm hcls hspec ha (ids_of _ _) hc hsol' label sf before' after' args' hpoint' hst' hafter' hx' hb'
      (.inl hmin') _)
    (by rw [hcon]; simp)

/-- **C121** (reordered tables). The same for models built on two tables that hold the same data, the second in another
row order and with renumbered observations: the two model objects hold the same results, except for those that list
rows or observations and for what the optimisers said; and the fitted probabilities of the rows are the same. -/
theorem mnl_fits_agree_reordered {env : Env ℝ} {ty : String} {df df' : Frame ℝ} {a : ModelArgs ℝ} {m m' : ChoiceModel ℝ}
    (hm : createChoiceModel env ty df a = .ok m) (hm' : createChoiceModel env ty df' a = .ok m') (hcls : m.cls = .mnl)
    {lab : String → ℝ → ℝ} (hdata : SameData [a.obsIdCol] lab df df')
    (hobs : a.altIdCol ≠ a.obsIdCol ∧ a.choiceCol ≠ a.obsIdCol) {s : List (String × SpecVal ℝ)}
    (hspec : a.specification = encodeAll s) (hvar : a.obsIdCol ∉ s.map Prod.fst) (hkeys : (s.map Prod.fst).Nodup)
    (hnm : ∀ ns, m.args.names = some ns → (ns.map Prod.fst).Nodup)
    {alts : List ℝ} (ha : AltsOf df a.altIdCol alts)
    {chosen : ℝ → Fin m.data.numRows} (hc : OneChoicePerObs m.data m.args.obsIdCol m.args.choiceCol chosen)
    {solver solver' : Solver} (hsol : FaithfulSolver solver) (hsol' : FaithfulSolver solver')
    (label : PyVal ℝ → String) (sf : ℝ → ℝ) (before after before' after' : List FitCall) (args args' : FitArgs)
    (hpoint : args.justPoint = false) (hpoint' : args'.justPoint = false)
    (hst : (fitCall sf (mnlFitCall solver m args) (fitCalls sf before (freshFit label m))).2 = none)
    (hst' : (fitCall sf (mnlFitCall solver' m' args') (fitCalls sf before' (freshFit label m'))).2 = none)
    (hafter : ∀ d ∈ after, ∀ r, d.outcome ≠ .results r) (hafter' : ∀ d ∈ after', ∀ r, d.outcome ≠ .results r)
    (hridge : 0 ≤ args.ridge.getD 0) (hr : args'.ridge = args.ridge) (hcon : args'.constrained = args.constrained)
    {x x' : Fin (specColumns alts s).length → ℝ}
    (hx : StoppedAt m.data m.args.altIdCol (specColumns alts s) args.constrained x
      (fitCalls sf (before ++ mnlFitCall solver m args :: after) (freshFit label m)).attrs)
    (hx' : StoppedAt m'.data m'.args.altIdCol (specColumns alts s) args.constrained x'
      (fitCalls sf (before' ++ mnlFitCall solver' m' args' :: after') (freshFit label m')).attrs)
    (hfix : ∀ i, (∃ z ∈ args.constrained.getD [], PosIs _ z i) → x i = x' i) :
    let t := (fitCalls sf (before ++ mnlFitCall solver m args :: after) (freshFit label m)).attrs
    let t' := (fitCalls sf (before' ++ mnlFitCall solver' m' args' :: after') (freshFit label m')).attrs
    SameInference t t' ∧
      ∃ (σ : Fin m'.data.numRows ≃ Fin m.data.numRows) (p : Fin m.data.numRows → ℝ),
        (∀ c ∈ df.columns, ∀ r, m'.data.val c r = lab c (m.data.val c (σ r))) ∧
        t.longFittedProbs = some (List.ofFn fun r => [p r]) ∧
        t'.longFittedProbs = some (List.ofFn fun r => [p (σ r)]) := by
  intro t t'
  obtain ⟨σ, e1, e2, e3, e4, e5, e6, e7, e8, e9, e10⟩ := reordered_models hm hm' hdata hobs hspec hvar ha
  rw [e2] at hx'
  have hinj := hdata.2.1 m.args.obsIdCol
  have hc' : OneChoicePerObs m'.data m.args.obsIdCol m.args.choiceCol
      fun o => σ.symm (chosen (invFun (lab m.args.obsIdCol) o)) := by
    have hi : ∀ r, invFun (lab m.args.obsIdCol) (m'.data.val m.args.obsIdCol r) = m.data.val m.args.obsIdCol (σ r) :=
      fun r => by rw [e8, leftInverse_invFun hinj]
    refine ⟨fun r => ?_, fun r => ?_, fun r hr => ?_⟩
    · rw [hi, e8, σ.apply_symm_apply, hc.mem, ← e8]
    · rw [hi, e7, σ.apply_symm_apply, hc.one]
    · rw [hi] at hr
      rw [e7]
      exact hc.zero _ fun h => hr (by rw [← h, σ.symm_apply_apply])
  obtain ⟨labels, h, rfl, h1, h2, h3⟩ :=
    two_fits hm hm' hcls (e1.trans hcls) e4 hkeys hnm e5 e6 (ids_of _ _) (ids_of _ _) hc hc' e2 e3 σ e7 hinj e8 e9
      hsol hsol' label sf before after before' after' args args' hpoint hpoint' hst hst' hafter hafter' hridge hr hcon hx hx' hfix
  refine ⟨h, σ, _, e10, h1.probabilities.longProbs, h2.probabilities.longProbs.trans ?_⟩
  exact congrArg some (congrArg List.ofFn (funext fun q => by rw [h3 q]))

/-- An optimiser that gives up and returns zeros. -/
private def exZero : Solver := fun _ f _ _ => .ok ⟨⟨0, (f 0).1⟩, false, "gave up"⟩

private lemma exZero_faithful : FaithfulSolver exZero := by
  intro n f x₀ h r hr
  cases hr
  rfl

private lemma exFour_logLik' (u : Fin 4 → ℝ) :
    logitLogLik (![1, 1, 2, 2] : Fin 4 → ℝ) ![1, 0, 0, 1] u =
      -Real.log (1 + Real.exp (u 1 - u 0)) - Real.log (1 + Real.exp (u 2 - u 3)) := by
  have h1 : ∑ s ∈ rowsOf (![1, 1, 2, 2] : Fin 4 → ℝ) ((![1, 1, 2, 2] : Fin 4 → ℝ) 0), Real.exp (u s) =
      Real.exp (u 0) * (1 + Real.exp (u 1 - u 0)) := by
    have : rowsOf (![1, 1, 2, 2] : Fin 4 → ℝ) ((![1, 1, 2, 2] : Fin 4 → ℝ) 0) = {0, 1} := by
      ext r; rw [Sep.mem_rows]; fin_cases r <;> simp
    rw [this, Finset.sum_pair (by decide), mul_add, mul_one, ← Real.exp_add, add_sub_cancel]
  have h2 : ∑ s ∈ rowsOf (![1, 1, 2, 2] : Fin 4 → ℝ) ((![1, 1, 2, 2] : Fin 4 → ℝ) 3), Real.exp (u s) =
      Real.exp (u 3) * (1 + Real.exp (u 2 - u 3)) := by
    have : rowsOf (![1, 1, 2, 2] : Fin 4 → ℝ) ((![1, 1, 2, 2] : Fin 4 → ℝ) 3) = {2, 3} := by
      ext r; rw [Sep.mem_rows]; fin_cases r <;> simp
    rw [this, Finset.sum_pair (by decide), mul_add, mul_one, ← Real.exp_add, add_sub_cancel, add_comm]
  have e : logitLogLik (![1, 1, 2, 2] : Fin 4 → ℝ) ![1, 0, 0, 1] u =
      Real.log (logitProb (![1, 1, 2, 2] : Fin 4 → ℝ) u 0) + Real.log (logitProb (![1, 1, 2, 2] : Fin 4 → ℝ) u 3) := by
    simp [logitLogLik, Fin.sum_univ_four]
  rw [e, Sep.log_prob, Sep.log_prob, h1, h2, Real.log_mul (Real.exp_pos _).ne' (by positivity),
    Real.log_mul (Real.exp_pos _).ne' (by positivity), Real.log_exp, Real.log_exp]
  ring

/-- One observation chose the larger `x` and the other the smaller: fits that stop at zero. -/
private lemma exFits (env : Env ℝ) (henv : env.badCol = fun _ => false) (label : PyVal ℝ → String) (sf : ℝ → ℝ)
    {y : Fin 4 → ℝ} (hy : y = ![0, 1, 1, 0] ∨ y = ![1, 0, 0, 1]) :
    ∃ m, createChoiceModel env "MNL" (exFour ![0, 1, 0, 1] y) (exFourArgs .allSame) = .ok m ∧ m.cls = .mnl ∧
      m.data = exFour ![0, 1, 0, 1] y ∧ m.args = exFourArgs .allSame ∧
      (∃ chosen, OneChoicePerObs m.data m.args.obsIdCol m.args.choiceCol chosen) ∧
      ∀ (solver : Solver) (x : ℝ) (ok : Bool) (msg : String), FaithfulSolver solver →
        (∀ n f x₀ h, ∃ r, solver n f x₀ h = .ok r) →
        (∀ n f h (x₀ : Fin n → ℝ), (∀ i, x₀ i = x) → solver n f x₀ h = .ok ⟨⟨0, (f 0).1⟩, ok, msg⟩) →
        (fitCall sf (mnlFitCall solver m ⟨⟨some [x], none, none, none⟩, none, none, false⟩)
          (fitCalls sf [] (freshFit label m))).2 = none ∧
        StoppedAt m.data m.args.altIdCol (specColumns [1, 2] [("x", .allSame)]) none 0
          (fitCalls sf ([] ++ mnlFitCall solver m ⟨⟨some [x], none, none, none⟩, none, none, false⟩ :: [])
            (freshFit label m)).attrs ∧
        (fitCalls sf ([] ++ mnlFitCall solver m ⟨⟨some [x], none, none, none⟩, none, none, false⟩ :: [])
            (freshFit label m)).attrs.message = some msg := by
  obtain ⟨m, hm, hcls, hdata, hargs, -⟩ := exFour_built env henv ![0, 1, 0, 1] y (v := .allSame)
    (by simp [SpecVal.ValidFor]) (by simp [SpecVal.columns])
  obtain ⟨c, nm, dt, ds, ns, ar, ms⟩ := m
  obtain rfl : dt = _ := hdata
  obtain rfl : ar = _ := hargs
  obtain rfl : c = _ := hcls
  have hn : (specColumns [(1 : ℝ), 2] [("x", .allSame)]).length = 1 := by simp [specColumns, SpecVal.columns]
  obtain ⟨chosen, hc⟩ : ∃ chosen, OneChoicePerObs (exFour ![0, 1, 0, 1] y) "obs" "y" chosen := by
    rcases hy with rfl | rfl
    · refine ⟨fun o => if o = 1 then (1 : Fin 4) else (2 : Fin 4), ?_, ?_, ?_⟩ <;> intro r <;> change Fin 4 at r <;>
        fin_cases r <;> simp [exFour]
    · refine ⟨fun o => if o = 1 then (0 : Fin 4) else (3 : Fin 4), ?_, ?_, ?_⟩ <;> intro r <;> change Fin 4 at r <;>
        fin_cases r <;> simp [exFour]
  have hU : ∀ (θ : Fin (specColumns [(1 : ℝ), 2] [("x", .allSame)]).length → ℝ) (r : Fin 4),
      rowIndex (exFour ![0, 1, 0, 1] y) "alt" (specColumns [1, 2] [("x", .allSame)]) (List.ofFn θ) r =
        (![0, 1, 0, 1] : Fin 4 → ℝ) r * θ ⟨0, by simp [hn]⟩ := by
    intro θ r
    fin_cases r <;> simp [rowIndex, specColumns, SpecVal.columns, ColDesc.value, exFour]
  have hst : ∀ (solver : Solver) (x : ℝ), (∀ n f x₀ h, ∃ r, solver n f x₀ h = .ok r) → (fitCall sf (mnlFitCall solver _
      ⟨⟨some [x], none, none, none⟩, none, none, false⟩) (fitCalls sf [] (freshFit label _))).2 = none := fun solver x hs =>
    (mnl_fit_succeeds_iff hm rfl (s := [("x", .allSame)]) rfl (by simp) (by intro ns h; cases h)
      (exFour_ids _ _).1 hc label sf [] _ rfl (by simp) (.inl hs)).2 ⟨⟨[x], rfl, by simp [hn]⟩,
        by simp [exFour, exFourArgs, exLogitArgs, Frame.colList], by simp [exFour], by simp, .inr fun v hv => by
          have h := hv (0 : Fin 4) (1 : Fin 4) rfl
          have h' := (hU v 0).symm.trans (h.trans (hU v 1))
          funext k
          have hk : k = ⟨0, by simp [hn]⟩ := Fin.ext (by have := k.2; simp [hn] at this; omega)
          rw [hk]
          simpa using h'.symm⟩
  have hmax : ∀ z : Fin (specColumns [(1 : ℝ), 2] [("x", .allSame)]).length → ℝ,
      (tableOf ⟨.mnl, nm, exFour ![0, 1, 0, 1] y, ds, ns, exFourArgs .allSame, ms⟩ [1, 2]).logLik none
        (fun (θ : Fin (specColumns [(1 : ℝ), 2] [("x", .allSame)]).length → ℝ) r =>
        rowIndex (exFour ![0, 1, 0, 1] y) "alt" (specColumns [1, 2] [("x", .allSame)]) (List.ofFn θ) r) z ≤
      (tableOf ⟨.mnl, nm, exFour ![0, 1, 0, 1] y, ds, ns, exFourArgs .allSame, ms⟩ [1, 2]).logLik none
        (fun (θ : Fin (specColumns [(1 : ℝ), 2] [("x", .allSame)]).length → ℝ) r =>
        rowIndex (exFour ![0, 1, 0, 1] y) "alt" (specColumns [1, 2] [("x", .allSame)]) (List.ofFn θ) r) 0 := by
    intro z
    refine (logLik_clipped _ _ _).trans_le (le_of_le_of_eq ?_ (logLik_clipped _ _ _).symm)
    have e : ∀ θ : Fin (specColumns [(1 : ℝ), 2] [("x", .allSame)]).length → ℝ,
        clippedLogLik (![1, 1, 2, 2] : Fin 4 → ℝ) y (fun r => rowIndex (exFour ![0, 1, 0, 1] y) "alt"
          (specColumns [1, 2] [("x", .allSame)]) (List.ofFn θ) r) =
        -Real.log (1 + Real.exp (-clip700 (θ ⟨0, by simp [hn]⟩))) - Real.log (1 + Real.exp (clip700 (θ ⟨0, by simp [hn]⟩))) := by
      intro θ
      rw [funext (hU θ)]
      have c0 : clip700 0 = 0 := by simp [clip700]
      rcases hy with rfl | rfl
      · refine (exFour_logLik fun r => clip700 ((![0, 1, 0, 1] : Fin 4 → ℝ) r * θ ⟨0, by simp [hn]⟩)).trans ?_
        simp [c0]
      · refine (exFour_logLik' fun r => clip700 ((![0, 1, 0, 1] : Fin 4 → ℝ) r * θ ⟨0, by simp [hn]⟩)).trans ?_
        simp [c0]
        ring
    refine (e z).trans_le (le_of_le_of_eq ?_ (e 0).symm)
    have c0 : clip700 0 = 0 := by simp [clip700]
    refine (four_le _).trans (le_of_eq ?_)
    rw [Pi.zero_apply, c0, neg_zero, Real.exp_zero, one_add_one_eq_two]
    ring
  have hb : ∀ r, |rowIndex (exFour ![0, 1, 0, 1] y) "alt" (specColumns [1, 2] [("x", .allSame)])
      (List.ofFn (0 : Fin (specColumns [(1 : ℝ), 2] [("x", .allSame)]).length → ℝ)) r| < 700 := by
    intro r
    refine (congrArg abs (hU 0 r)).trans_lt ?_
    simp
  refine ⟨_, hm, rfl, rfl, rfl, ⟨chosen, hc⟩, fun solver x ok msg hf hs hr => ⟨hst solver x hs, ?_⟩⟩
  obtain ⟨n, z, labels, H, F, hn', -, ⟨x₀, hx₀, hopt⟩, hrep, -⟩ :=
    mnl_fit_report hm rfl (s := [("x", .allSame)]) rfl (exFour_ids _ _).1 (exFour_ids _ _).2 hc hf label sf [] []
      ⟨⟨some [x], none, none, none⟩, none, none, false⟩ rfl (hst solver x hs) (by simp)
  obtain rfl : n = _ := hn'
  obtain ⟨f, h, rep, hrun, hx, -, hmsg, -⟩ := hopt.run
  obtain rfl : [x] = x₀ := Option.some.inj hx₀
  rw [hr _ f h _ fun i => by
    have hi : i.val = 0 := by have := i.2; simp [hn] at this; omega
    simp [hi]] at hrun
  cases hrun
  subst hx
  exact ⟨max_stopped hm rfl (s := [("x", .allSame)]) rfl (exFour_ids _ _).1 (exFour_ids _ _).2 hc hf label sf [] [] _ rfl
    (hst solver x hs) (by simp) ⟨_, hrep.statistics.params⟩ hb (.inr hmax) _, hmsg⟩

/-- Non-vacuity of `mnl_fits_agree`: two optimisers, one that stays where it starts and one that returns zeros wherever
it starts, fit two observations that chose the larger and the smaller `x`. -/
example (env : Env ℝ) (henv : env.badCol = fun _ => false) (label : PyVal ℝ → String) (sf : ℝ → ℝ) :
    ∃ m, createChoiceModel env "MNL" (exFour ![0, 1, 0, 1] ![0, 1, 1, 0]) (exFourArgs .allSame) = .ok m ∧
      let t := (fitCall sf (mnlFitCall exStaying m ⟨⟨some [0], none, none, none⟩, none, none, false⟩) (freshFit label m)).1.attrs
      let t' := (fitCall sf (mnlFitCall exZero m ⟨⟨some [5], none, none, none⟩, none, none, false⟩) (freshFit label m)).1.attrs
      SameResults t t' ∧ t.message = some "done" ∧ t'.message = some "gave up" := by
  obtain ⟨m, hm, hcls, hdata, hargs, ⟨chosen, hc⟩, key⟩ := exFits env henv label sf (Or.inl rfl)
  obtain ⟨k1, k2, k3⟩ := key exStaying 0 true "done" exStaying_faithful (fun _ _ _ _ => ⟨_, rfl⟩) fun n f h x₀ hx => by
    obtain rfl : x₀ = 0 := funext hx
    rfl
  obtain ⟨j1, j2, j3⟩ := key exZero 5 false "gave up" exZero_faithful (fun _ _ _ _ => ⟨_, rfl⟩) fun n f h x₀ hx => rfl
  refine ⟨m, hm, ?_, k3, j3⟩
  exact mnl_fits_agree hm hcls (s := [("x", .allSame)]) (by rw [hargs]; rfl) (by simp) (by rw [hargs]; intro ns h; cases h)
    (by rw [hdata, hargs]; exact (exFour_ids _ _).1) hc exStaying_faithful exZero_faithful label
    sf [] [] [] [] _ _ rfl rfl k1 j1 (by simp) (by simp) (by simp) rfl rfl k2 j2 (by simp)

/-- Non-vacuity of `mnl_fits_agree_reordered`: the same observations, exchanged. -/
example (env : Env ℝ) (henv : env.badCol = fun _ => false) (label : PyVal ℝ → String) (sf : ℝ → ℝ) :
    ∃ m m', createChoiceModel env "MNL" (exFour ![0, 1, 0, 1] ![0, 1, 1, 0]) (exFourArgs .allSame) = .ok m ∧
      createChoiceModel env "MNL" (exFour ![0, 1, 0, 1] ![1, 0, 0, 1]) (exFourArgs .allSame) = .ok m' ∧
      SameInference
        (fitCall sf (mnlFitCall exStaying m ⟨⟨some [0], none, none, none⟩, none, none, false⟩) (freshFit label m)).1.attrs
        (fitCall sf (mnlFitCall exZero m' ⟨⟨some [5], none, none, none⟩, none, none, false⟩)
          (freshFit label m')).1.attrs := by
  obtain ⟨m, hm, hcls, hdata, hargs, ⟨chosen, hc⟩, key⟩ := exFits env henv label sf (Or.inl rfl)
  obtain ⟨m', hm', hcls', hdata', hargs', -, key'⟩ := exFits env henv label sf (Or.inr rfl)
  obtain ⟨k1, k2, k3⟩ := key exStaying 0 true "done" exStaying_faithful (fun _ _ _ _ => ⟨_, rfl⟩) fun n f h x₀ hx => by
    obtain rfl : x₀ = 0 := funext hx
    rfl
  obtain ⟨j1, j2, j3⟩ := key' exZero 5 false "gave up" exZero_faithful (fun _ _ _ _ => ⟨_, rfl⟩) fun n f h x₀ hx => rfl
  refine ⟨m, m', hm, hm', ?_⟩
  refine (mnl_fits_agree_reordered hm hm' hcls (lab := fun c v => if c = "obs" then 3 - v else v) ⟨rfl, fun c => ?_,
    fun c hcc => ?_, ?_⟩ (by simp [exFourArgs, exLogitArgs]) (s := [("x", .allSame)]) rfl
    (by simp [exFourArgs, exLogitArgs]) (by simp) (by rw [hargs]; intro ns h; cases h) (exFour_ids _ _).1 hc
    exStaying_faithful exZero_faithful label
    sf [] [] [] [] _ _ rfl rfl k1 j1 (by simp) (by simp) (by simp) rfl rfl k2 j2 (by simp)).1
  · by_cases h : c = "obs"
    · simp only [h, if_true]; exact fun a b hab => by linarith
    · simp only [h, if_false]; exact injective_id
  · have h : c ≠ "obs" := by simpa [exFourArgs, exLogitArgs] using hcc
    simp only [h, if_false]
    rfl
  · refine ⟨(Equiv.addRight (2 : Fin 4) : Fin 4 ≃ Fin 4), fun c hcc r => ?_⟩
    change Fin 4 at r
    change (exFour ![0, 1, 0, 1] ![1, 0, 0, 1]).val c r = if c = "obs" then
      3 - (exFour ![0, 1, 0, 1] ![0, 1, 1, 0]).val c (r + 2 : Fin 4) else (exFour ![0, 1, 0, 1] ![0, 1, 1, 0]).val c (r + 2 : Fin 4)
    have hcc' : c = "obs" ∨ c = "alt" ∨ c = "x" ∨ c = "y" := by simpa [exFour] using hcc
    rcases hcc' with rfl | rfl | rfl | rfl <;> fin_cases r <;> simp [exFour] <;> norm_num

end

end Pylogit
