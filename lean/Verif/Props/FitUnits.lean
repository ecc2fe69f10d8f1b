import Verif.Props.BootUnits
import Verif.Props.LikelihoodRatio

/-!
# C127: fits in other units
-/

open Finset Matrix Function

namespace Pylogit

open Spec

noncomputable section

/-! ## Derivatives in other units -/

section Derivs

variable {n : ℕ} {F F' : (Fin n → ℝ) → ℝ} {κ : Fin n → ℝ} {x x' : Fin n → ℝ}

private lemma scaled_update (hx : ∀ j, x j = κ j * x' j) (i : Fin n) (s : ℝ) :
    (fun j => κ j * update x' i s j) = update x i (κ i * s) := by
  funext j
  by_cases h : j = i
  · subst h; simp
  · simp [h, hx]

lemma partials_scaled (hF : ∀ θ, F' θ = F fun j => κ j * θ j) (hx : ∀ j, x j = κ j * x' j) {g g' : Fin n → ℝ}
    (h : HasPartials F g x) (h' : HasPartials F' g' x') (i : Fin n) : g' i = κ i * g i := by
  have h1 : HasDerivAt (fun s => F (update x i (κ i * s))) (g i * κ i) (x' i) := by
    have h0 := h i
    rw [hx i] at h0
    exact HasDerivAt.comp (x' i) (h₂ := fun s => F (update x i s)) (h := fun s => κ i * s) h0
      (by simpa using (hasDerivAt_id (x' i)).const_mul (κ i))
  have h2 := h' i
  simp only [hF, scaled_update hx] at h2
  rw [h2.unique h1, mul_comm]

private lemma seconds_scaled (hF : ∀ θ, F' θ = F fun j => κ j * θ j) (hx : ∀ j, x j = κ j * x' j)
    {H H' : Matrix (Fin n) (Fin n) ℝ} (h : HasSecondPartials F H x) (h' : HasSecondPartials F' H' x') (i j : Fin n) :
    H' i j = κ i * κ j * H i j := by
  have h1 : HasDerivAt (fun t => κ i * deriv (fun s => F (update (update x j (κ j * t)) i s)) (update x j (κ j * t) i))
      (κ i * (H i j * κ j)) (x' j) := by
    have h0 := h i j
    rw [hx j] at h0
    exact (HasDerivAt.comp (x' j) (h₂ := fun t => deriv (fun s => F (update (update x j t) i s)) (update x j t i))
      (h := fun t => κ j * t) h0 (by simpa using (hasDerivAt_id (x' j)).const_mul (κ j))).const_mul (κ i)
  have h2 := h' i j
  have e : ∀ t, deriv (fun s => F' (update (update x' j t) i s)) (update x' j t i) =
      κ i * deriv (fun s => F (update (update x j (κ j * t)) i s)) (update x j (κ j * t) i) := by
    intro t
    have hx2 : ∀ l, update x j (κ j * t) l = κ l * update x' j t l := fun l => by
      rw [← scaled_update hx j t]
    have e1 : (fun s => F' (update (update x' j t) i s)) =
        fun s => (fun s => F (update (update x j (κ j * t)) i s)) (κ i * s) := by
      funext s
      rw [hF, scaled_update hx2]
    have e2 := deriv_comp_mul_left (κ i) (fun s => F (update (update x j (κ j * t)) i s)) (update x' j t i)
    rw [e1, hx2 i]
    exact e2.trans (smul_eq_mul _ _)
  simp only [e] at h2
  rw [h2.unique h1]
  ring

end Derivs

/-! ## Matrices in other units -/

private lemma inv_scaled {n : ℕ} {H H' : Matrix (Fin n) (Fin n) ℝ} {κ : Fin n → ℝ} (hκ : ∀ i, κ i ≠ 0)
    (h : ∀ i j, H' i j = κ i * κ j * H i j) (hu : IsUnit H.det) (i j : Fin n) :
    H'⁻¹ i j = (κ i)⁻¹ * (κ j)⁻¹ * H⁻¹ i j := by
  have e : H' = diagonal κ * H * diagonal κ := by
    ext i j
    rw [mul_diagonal, diagonal_mul, h]; ring
  have e2 : H'⁻¹ = diagonal (fun i => (κ i)⁻¹) * H⁻¹ * diagonal (fun i => (κ i)⁻¹) := by
    refine inv_eq_right_inv ?_
    have d : diagonal κ * diagonal (fun i => (κ i)⁻¹) = 1 := by
      rw [diagonal_mul_diagonal, ← diagonal_one]
      congr 1
      funext i
      exact mul_inv_cancel₀ (hκ i)
    calc H' * (diagonal (fun i => (κ i)⁻¹) * H⁻¹ * diagonal fun i => (κ i)⁻¹)
        = diagonal κ * H * (diagonal κ * diagonal (fun i => (κ i)⁻¹)) * H⁻¹ * diagonal (fun i => (κ i)⁻¹) := by
          rw [e]; simp only [Matrix.mul_assoc]
      _ = 1 := by rw [d, Matrix.mul_one, Matrix.mul_assoc (diagonal κ), mul_nonsing_inv _ hu, Matrix.mul_one, d]
  rw [e2, mul_diagonal, diagonal_mul]; ring

private lemma sandwich_scaled {n : ℕ} {H H' F F' : Matrix (Fin n) (Fin n) ℝ} {κ : Fin n → ℝ} (hκ : ∀ i, κ i ≠ 0)
    (h : ∀ i j, H' i j = (κ i)⁻¹ * (κ j)⁻¹ * H i j) (hF : ∀ i j, F' i j = κ i * κ j * F i j) (i j : Fin n) :
    (H' * F' * H') i j = (κ i)⁻¹ * (κ j)⁻¹ * (H * F * H) i j := by
  simp only [mul_apply, h, hF, Finset.mul_sum, Finset.sum_mul]
  refine Finset.sum_congr rfl fun a _ => Finset.sum_congr rfl fun b _ => ?_
  have h1 := hκ a
  have h2 := hκ b
  field_simp

private lemma sqrt_scaled {c v : ℝ} : Real.sqrt (c⁻¹ * c⁻¹ * v) = |c|⁻¹ * Real.sqrt v := by
  rw [Real.sqrt_mul (mul_self_nonneg _), Real.sqrt_mul_self_eq_abs, abs_inv]

private lemma ratio_scaled {c x e : ℝ} (hc : c ≠ 0) : c⁻¹ * x / (|c|⁻¹ * e) = if 0 < c then x / e else -(x / e) := by
  have : |c| ≠ 0 := abs_ne_zero.2 hc
  split_ifs with h
  · rw [abs_of_pos h, mul_div_mul_left _ _ (inv_ne_zero hc)]
  · rw [abs_of_neg (lt_of_le_of_ne (not_lt.1 h) hc), inv_neg, neg_mul, div_neg, mul_div_mul_left _ _ (inv_ne_zero hc)]

private lemma abs_ratio {c v : ℝ} : |(if 0 < c then v else -v)| = |v| := by
  split_ifs <;> simp

/-! ## Reports in other units -/

private lemma report_units {C : List String} {N : ℕ} {w w' : String → Fin N → ℝ} {obsCol choiceCol : String}
    {ids : List ℝ} (hobs : w' obsCol = w obsCol) (hch : w' choiceCol = w choiceCol) {chosen : ℝ → Fin N}
    (hc : OneChoicePerObs ⟨C, N, w⟩ obsCol choiceCol chosen) {n : ℕ} {κ : Fin n → ℝ} (hκ : ∀ j, κ j ≠ 0)
    {U U' : (Fin n → ℝ) → Fin N → ℝ} (hU : ∀ θ, U' θ = U fun j => κ j * θ j) {x x' : Fin n → ℝ}
    (hx : ∀ j, x' j = (κ j)⁻¹ * x j) {sf : ℝ → ℝ} {labels : Fin n → String} {H H' F F' : Matrix (Fin n) (Fin n) ℝ}
    {t t' : FitAttrs} (r : FitReport ⟨⟨C, N, w⟩, obsCol, choiceCol, ids⟩ none U labels x t)
    (r' : FitReport ⟨⟨C, N, w'⟩, obsCol, choiceCol, ids⟩ none U' labels x' t')
    (d : DerivativeReport ⟨⟨C, N, w⟩, obsCol, choiceCol, ids⟩ none U labels x F t)
    (d' : DerivativeReport ⟨⟨C, N, w'⟩, obsCol, choiceCol, ids⟩ none U' labels x' F' t')
    (hH : HasSecondPartials (LongData.logLik ⟨⟨C, N, w⟩, obsCol, choiceCol, ids⟩ none U) H x)
    (hH' : HasSecondPartials (LongData.logLik ⟨⟨C, N, w'⟩, obsCol, choiceCol, ids⟩ none U') H' x')
    (i : InferenceReport sf labels none x H F t) (i' : InferenceReport sf labels none x' H' F' t') :
    SameFitInUnits κ t t' := by
  have hx0 : ∀ j, x j = κ j * x' j := fun j => by rw [hx, mul_inv_cancel_left₀ (hκ j)]
  have hUx : U' x' = U x := by
    rw [hU]
    congr 1
    exact funext fun j => (hx0 j).symm
  have hp : ∀ u, LongData.prob ⟨⟨C, N, w'⟩, obsCol, choiceCol, ids⟩ u = LongData.prob ⟨⟨C, N, w⟩, obsCol, choiceCol, ids⟩ u := by
    intro u
    unfold LongData.prob
    dsimp only
    rw [hobs]
  have hy : LongData.y ⟨⟨C, N, w'⟩, obsCol, choiceCol, ids⟩ = LongData.y ⟨⟨C, N, w⟩, obsCol, choiceCol, ids⟩ := hch
  have hrows : ∀ o, LongData.rows ⟨⟨C, N, w'⟩, obsCol, choiceCol, ids⟩ o = LongData.rows ⟨⟨C, N, w⟩, obsCol, choiceCol, ids⟩ o := by
    intro o
    simp only [LongData.rows, hobs]
  have hL : ∀ θ, LongData.logLik ⟨⟨C, N, w'⟩, obsCol, choiceCol, ids⟩ none U' θ =
      LongData.logLik ⟨⟨C, N, w⟩, obsCol, choiceCol, ids⟩ none U fun j => κ j * θ j := by
    intro θ
    unfold LongData.logLik
    rw [Option.getD_none, zero_mul, zero_mul, sub_zero, sub_zero]
    refine Finset.sum_congr rfl fun r _ => ?_
    rw [hy, hp, hU]
  have hE : LongData.equalShares ⟨⟨C, N, w'⟩, obsCol, choiceCol, ids⟩ =
      LongData.equalShares ⟨⟨C, N, w⟩, obsCol, choiceCol, ids⟩ := by
    unfold LongData.equalShares
    refine Finset.sum_congr rfl fun r _ => ?_
    rw [hy, hrows]
    dsimp only
    rw [hobs]
  have hHs := seconds_scaled hL hx0 hH hH'
  have hHi := inv_scaled hκ hHs i.invertible
  have hFs : ∀ a b, F' a b = κ a * κ b * F a b := by
    obtain ⟨S, s1, s2⟩ := d.fisher
    obtain ⟨S', s1', s2'⟩ := d'.fisher
    intro a b
    rw [s2, s2', Option.getD_none, mul_zero, zero_mul, sub_zero, sub_zero, Finset.mul_sum]
    refine Finset.sum_congr rfl fun r _ => ?_
    rw [hy]
    by_cases hr : r = chosen (w obsCol r)
    · have h1 : LongData.y ⟨⟨C, N, w⟩, obsCol, choiceCol, ids⟩ r = 1 := by
        have := hc.one r
        rwa [← hr] at this
      have key := fun l => partials_scaled (F := fun θ => Real.log (LongData.prob ⟨⟨C, N, w⟩, obsCol, choiceCol, ids⟩ (U θ) r))
        (F' := fun θ => Real.log (LongData.prob ⟨⟨C, N, w'⟩, obsCol, choiceCol, ids⟩ (U' θ) r))
        (fun θ => by beta_reduce; rw [hp, hU]) hx0 (s1 r h1) (s1' r (by rw [hy]; exact h1)) l
      rw [key a, key b]
      ring
    · have h0 : LongData.y ⟨⟨C, N, w⟩, obsCol, choiceCol, ids⟩ r = 0 := hc.zero r hr
      rw [h0]
      ring
  have hR := sandwich_scaled hκ hHi hFs
  have hfix : ∀ j, ¬ FixedLabel labels none j := fun j h => by
    obtain ⟨z, hz, -⟩ := h
    simp at hz
  have hcov : ∀ a b, (-H'⁻¹) a b = (κ a)⁻¹ * (κ b)⁻¹ * (-H⁻¹) a b := fun a b => by
    rw [Matrix.neg_apply, Matrix.neg_apply, hHi]; ring
  have hLL : LongData.logLik ⟨⟨C, N, w'⟩, obsCol, choiceCol, ids⟩ none U' x' =
      LongData.logLik ⟨⟨C, N, w⟩, obsCol, choiceCol, ids⟩ none U x := by
    rw [hL]
    congr 1
    exact funext fun j => (hx0 j).symm
  obtain ⟨st, pr⟩ := r
  obtain ⟨st', pr'⟩ := r'
  rw [hLL, hE] at st'
  rw [hp, hUx] at pr'
  refine
    { logLik := ⟨st'.logLik.trans st.logLik.symm, st'.llf.trans st.llf.symm, st'.nullLL.trans st.nullLL.symm⟩
      goodness := ⟨st'.rhoSq.trans st.rhoSq.symm, st'.rhoBarSq.trans st.rhoBarSq.symm, st'.aic.trans st.aic.symm,
        st'.bic.trans st.bic.symm⟩
      counts := ⟨st'.nobs.trans st.nobs.symm, st'.dfModel.trans st.dfModel.symm, st'.dfResid.trans st.dfResid.symm⟩
      probabilities := ⟨pr'.longProbs.trans pr.longProbs.symm, ?_⟩
      residuals := ⟨?_, ?_, ?_⟩
      params := ⟨_, x, x', st.params, st'.params, hx⟩
      stdErrs := ?_
      tvalues := ?_
      pvalues := ?_
      cov := ⟨_, _, _, i.cov, i'.cov, hcov⟩
      robust := ?_ }
  · have h1 := pr'.fittedProbs
    simp only [hrows, hy] at h1
    exact h1.trans pr.fittedProbs.symm
  · have h1 := pr'.residuals
    simp only [hy] at h1
    exact h1.trans pr.residuals.symm
  · have h1 := pr'.indChi
    simp only [hrows, hy] at h1
    exact h1.trans pr.indChi.symm
  · have h1 := pr'.chiSquare
    simp only [hy] at h1
    exact h1.trans pr.chiSquare.symm
  · obtain ⟨e, h1, -, h2⟩ := i.stdErrs
    obtain ⟨e', h1', -, h2'⟩ := i'.stdErrs
    obtain rfl : e = _ := funext fun j => (h2 j).2 (hfix j)
    obtain rfl : e' = _ := funext fun j => (h2' j).2 (hfix j)
    exact ⟨_, _, _, h1, h1', fun j => by rw [hcov, sqrt_scaled]⟩
  · obtain ⟨e, h1, h2⟩ := i.tvalues
    obtain ⟨e', h1', h2'⟩ := i'.tvalues
    obtain rfl : e = _ := funext fun j => (h2 j).2 (hfix j)
    obtain rfl : e' = _ := funext fun j => (h2' j).2 (hfix j)
    exact ⟨_, _, _, h1, h1', fun j => by rw [hcov, sqrt_scaled, hx, ratio_scaled (hκ j)]⟩
  · obtain ⟨e, h1, h2⟩ := i.pvalues
    obtain ⟨e', h1', h2'⟩ := i'.pvalues
    obtain rfl : e = _ := funext fun j => (h2 j).2 (hfix j)
    obtain rfl : e' = _ := funext fun j => (h2' j).2 (hfix j)
    rw [h1, h1']
    congr 3
    funext j
    rw [hcov, sqrt_scaled, hx, ratio_scaled (hκ j), abs_ratio]
  · obtain ⟨e, v, p, h1, h2, h3, h4⟩ := i.robust
    obtain ⟨e', v', p', h1', h2', h3', h4'⟩ := i'.robust
    refine ⟨_, _, _, i.robustCov, i'.robustCov, hR, e, e', v, v', p, p', h1, h1', h2, h2', h3, h3', fun j hj => ?_⟩
    have hj' : 0 < (H'⁻¹ * F' * H'⁻¹) j j := by
      rw [hR]
      exact mul_pos (mul_self_pos.2 (inv_ne_zero (hκ j))) hj
    obtain ⟨a1, a2, a3⟩ := (h4 j).2.1 (hfix j) hj
    obtain ⟨b1, b2, b3⟩ := (h4' j).2.1 (hfix j) hj'
    refine ⟨⟨_, a1, ?_⟩, ⟨_, a2, ?_⟩, ?_⟩
    · rw [b1, hR, sqrt_scaled]
    · rw [b2, hR, sqrt_scaled, hx, ratio_scaled (hκ j)]
    · rw [b3, a3, hR, sqrt_scaled, hx, ratio_scaled (hκ j), abs_ratio]

theorem fit_best {m : ChoiceModel ℝ} {cols : List (ColDesc ℝ)} {ids : List ℝ} {x : Fin cols.length → ℝ}
    (h : ∀ y, (tableOf m ids).logLik none
      (fun (θ : Fin cols.length → ℝ) r => rowIndex m.data m.args.altIdCol cols (List.ofFn θ) r) y ≤
        (tableOf m ids).logLik none
      (fun (θ : Fin cols.length → ℝ) r => rowIndex m.data m.args.altIdCol cols (List.ofFn θ) r) x) (z : Fin cols.length → ℝ) :
    clippedLogLik (m.data.val m.args.obsIdCol) (fun r => m.data.val m.args.choiceCol r)
        (describedMatrix m.data m.args.altIdCol cols cols.length *ᵥ z) ≤
      clippedLogLik (m.data.val m.args.obsIdCol) (fun r => m.data.val m.args.choiceCol r)
        (describedMatrix m.data m.args.altIdCol cols cols.length *ᵥ x) := by
  have e : ∀ θ : Fin cols.length → ℝ, (tableOf m ids).logLik none
      (fun (θ : Fin cols.length → ℝ) r => rowIndex m.data m.args.altIdCol cols (List.ofFn θ) r) θ =
      clippedLogLik (m.data.val m.args.obsIdCol) (fun r => m.data.val m.args.choiceCol r)
        (describedMatrix m.data m.args.altIdCol cols cols.length *ᵥ θ) := fun θ => by
    rw [logLik_clipped, described_dot rfl θ]; rfl
  exact (e z).symm.trans_le ((h z).trans (e x).le)

/-! ## C127: fits in other units -/

/-- **C127** (fits). Build a multinomial logit on a table, and another one on the same table with some variables in other
units, and let both objects hold the results of fits without a ridge penalty and fixed parameters, after any other
calls, each with any starting values and any optimiser that finds global maxima. If no utility is clipped at the
estimates, both report the same log-likelihoods, fit statistics, probabilities, residuals and p-values, and the
estimates and their covariances are those of the other fit in the other units. -/
theorem fit_units {env : Env ℝ} {ty : String} {df : Frame ℝ} {a : ModelArgs ℝ} {m m' : ChoiceModel ℝ}
    {k : String → ℝ} (hk : OnlyVariables a k) (hm : createChoiceModel env ty df a = .ok m)
    (hm' : createChoiceModel env ty (inUnits df k) a = .ok m') (hcls : m.cls = .mnl)
    {s : List (String × SpecVal ℝ)} (hspec : m.args.specification = encodeAll s) (hkeys : (s.map Prod.fst).Nodup)
    (hnm : ∀ ns, m.args.names = some ns → (ns.map Prod.fst).Nodup)
    {alts ids : List ℝ} (ha : AltsOf m.data m.args.altIdCol alts) (hids : AltsOf m.data m.args.obsIdCol ids)
    {chosen : ℝ → Fin m.data.numRows} (hc : OneChoicePerObs m.data m.args.obsIdCol m.args.choiceCol chosen)
    {solver solver' : Solver} (hsol : FaithfulSolver solver) (hsol' : FaithfulSolver solver')
    (hmin : MinimisingSolver solver) (hmin' : MinimisingSolver solver') (label : PyVal ℝ → String) (sf : ℝ → ℝ)
    {args args' : FitArgs} (hpoint : args.justPoint = false) (hpoint' : args'.justPoint = false)
    (hridge : args.ridge = none) (hridge' : args'.ridge = none)
    (hcon : args.constrained = none) (hcon' : args'.constrained = none) {t t' : FitAttrs}
    (ht : HoldsResultsOf label sf m (mnlFitCall solver m args) t)
    (ht' : HoldsResultsOf label sf m' (mnlFitCall solver' m' args') t')
    (hin : UnclippedFit m.data m.args.altIdCol (specColumns alts s) t)
    (hin' : UnclippedFit m'.data m'.args.altIdCol (specColumns alts s) t') :
    SameFitInUnits (fun j : Fin (specColumns alts s).length => k (specColumns alts s)[j].ofVariable) t t' := by
  obtain ⟨e1, e2, e3, hk'⟩ := built_inUnits hk hm hm'
  obtain ⟨before, after, hst, hafter, rfl⟩ := ht
  obtain ⟨before', after', hst', hafter', rfl⟩ := ht'
  obtain ⟨cls', dn', data', des', ivn', args₂, mp'⟩ := m'
  dsimp only at e1 e2 e3 hin'
  subst e1 e2 e3
  have ha' : AltsOf (inUnits m.data k) m.args.altIdCol alts := by
    obtain ⟨a1, a2⟩ := ha
    exact ⟨a1, by rw [same_val hk'.alt]; exact a2⟩
  have hids' : AltsOf (inUnits m.data k) m.args.obsIdCol ids := by
    obtain ⟨a1, a2⟩ := hids
    exact ⟨a1, by rw [same_val hk'.obs]; exact a2⟩
  have hc' : OneChoicePerObs (inUnits m.data k) m.args.obsIdCol m.args.choiceCol chosen := by
    obtain ⟨c1, c2, c3⟩ := hc
    constructor <;> (try rw [same_val hk'.obs]) <;> (try rw [same_val hk'.choice]) <;> assumption
  -- the columns are identified, since the fit was stored
  have hid : Identified m.data m.args.obsIdCol m.args.altIdCol (specColumns alts s) := by
    obtain ⟨r, hr⟩ : ∃ r, mnlFit solver m args = .ok r := by
      have h0 := hst
      unfold mnlFitCall at h0
      rw [hpoint] at h0
      cases hf : mnlFit solver m args with
      | error e => simp [hf, fitOutcome, fitCall] at h0
      | ok r => exact ⟨r, rfl⟩
    have := (mnl_fit_stores_iff hm hcls hspec hkeys hnm ha hc label sf before args hpoint (by simp [hridge]) hr).1 hst
    simpa [hridge] using this
  -- the names are the same
  have hnames : ivn' = m.indVarNames := by
    have hd := (built_own hm).1.design
    have hd' := (built_own hm').1.design
    dsimp only at hd'
    rw [hspec] at hd hd'
    obtain ⟨-, -, -, -, cs, h1, -, -, h2⟩ := (createDesignMatrix_ok_iff (altsOf_eq ha)).1 hd
    obtain ⟨-, -, -, -, cs', h1', -, -, h2'⟩ := (createDesignMatrix_ok_iff (altsOf_eq ha')).1 hd'
    rw [designColumns_encode] at h1 h1'
    rcases h2 with ⟨h3, h4⟩ | ⟨ns, h3, h4⟩ <;> rcases h2' with ⟨h3', h4'⟩ | ⟨ns', h3', h4'⟩
    · rw [h4, h4', ← Except.ok.inj h1, ← Except.ok.inj h1']
      simp [described, Function.comp_def]
    · rw [h3] at h3'; cases h3'
    · rw [h3] at h3'; cases h3'
    · rw [h3] at h3'
      cases h3'
      exact Except.ok.inj (h4'.symm.trans h4)
  obtain ⟨n, x, labels, H, F, hn, hlab, -, hrep, hmax, hder, hinf, -⟩ :=
    mnl_fit_report hm hcls hspec ha hids hc hsol label sf before after args hpoint hst hafter
  obtain ⟨n', x', labels', H', F', hn', hlab', -, hrep', hmax', hder', hinf', -⟩ :=
    mnl_fit_report hm' hcls hspec ha' hids' hc' hsol' label sf before' after' args' hpoint' hst' hafter'
  subst hn hn'
  have hll : labels' = labels := by
    have := hlab'.trans ((congrArg (List.map label) hnames).trans hlab.symm)
    exact List.ofFn_injective this
  subst hll
  rw [hridge] at hrep hmax hder hinf
  rw [hridge'] at hrep' hmax' hder' hinf'
  rw [hcon] at hinf
  rw [hcon'] at hinf'
  have u1 := hin _ _ hrep.statistics.params
  have u2 := hin' _ _ hrep'.statistics.params
  obtain ⟨d1, s1⟩ := hder u1
  obtain ⟨d2, s2⟩ := hder' u2
  refine report_units (C := m.data.columns) (N := m.data.numRows) (w := m.data.val) (w' := (inUnits m.data k).val)
    (same_val hk'.obs) (same_val hk'.choice) hc (fun j => hk'.nonzero _) (fun θ => ?_) ?_ hrep hrep' d1 d2 s1 s2
    (hinf (by simp)) (hinf' (by simp))
  · have e1 := described_dot (df := inUnits m.data k) (altCol := m.args.altIdCol) rfl θ
    have e2 := described_dot (df := m.data) (altCol := m.args.altIdCol) (cols := specColumns alts s) rfl
      fun j => k (specColumns alts s)[j].ofVariable * θ j
    refine e1.symm.trans (Eq.trans ?_ e2)
    funext r
    show ∑ j, describedMatrix (inUnits m.data k) m.args.altIdCol (specColumns alts s) _ r j * θ j =
      ∑ j, describedMatrix m.data m.args.altIdCol (specColumns alts s) _ r j * _
    refine Finset.sum_congr rfl fun j _ => ?_
    rw [described_inUnits m.data hk'.alt (specColumns alts s) r j]
    ring
  · refine units_max (df := m.data) (obsCol := m.args.obsIdCol) (altCol := m.args.altIdCol)
      (choiceCol := m.args.choiceCol) hk'.obs hk'.alt hk'.choice hk'.nonzero hc
      (fun _ y => y) (fun o y hy => hy) (look := fun _ => True) (fun o _ => one_pos) ?_ ?_ u1 u2
      (fun v hv => hid v fun r q hrq => hv r q hrq trivial)
    · exact fit_best (hmax hmin)
    · exact fit_best (hmax' hmin')

end

end Pylogit
