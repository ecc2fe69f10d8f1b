import Verif.Lemmas.Covariance
import Verif.Props.Separation
import Verif.Props.WholeBootRuns
import Verif.Spec.Separation

/-!
# C120: what fits, bootstraps and jackknifes return for data without estimates
-/

set_option linter.unusedSectionVars false

open Finset Matrix Function

namespace Pylogit

open Spec

noncomputable section

/-! ## The tables -/

theorem described_dot {df : Frame ℝ} {altCol : String} {cols : List (ColDesc ℝ)} {n : ℕ} (hn : n = cols.length)
    (θ : Fin n → ℝ) : describedMatrix df altCol cols n *ᵥ θ = fun r => rowIndex df altCol cols (List.ofFn θ) r := by
  subst hn
  funext r
  rw [rowIndex]
  simp only [mulVec, dotProduct, describedMatrix, Matrix.of_apply]
  rw [← List.sum_ofFn]
  congr 1
  apply List.ext_getElem
  · simp
  · intro i h1 h2; simp

theorem logLik_clipped (D : LongData) {n : ℕ} (U : (Fin n → ℝ) → Fin D.df.numRows → ℝ) (θ : Fin n → ℝ) :
    D.logLik none U θ = clippedLogLik (D.df.val D.obsCol) D.y (U θ) := by
  simp [LongData.logLik, clippedLogLik, LongData.prob]

theorem logLikWithout_clipped (D : LongData) (o : ℝ) {n : ℕ} (U : (Fin n → ℝ) → Fin D.df.numRows → ℝ) (θ : Fin n → ℝ) :
    D.logLikWithout o none U θ = clippedLogLik (D.df.val D.obsCol) (D.others o) (U θ) := by
  simp only [LongData.logLikWithout, clippedLogLik, LongData.prob, LongData.others, Option.getD_none, zero_mul, sub_zero,
    Finset.sum_filter, ite_mul]
  refine Finset.sum_congr rfl fun r _ => ?_
  by_cases h : D.df.val D.obsCol r = o <;> simp [h]

theorem sampleLogLik_clipped (D : LongData) (sample : List ℝ) {n : ℕ} (U : (Fin n → ℝ) → Fin D.df.numRows → ℝ)
    (θ : Fin n → ℝ) :
    D.sampleLogLik sample none U θ = clippedLogLik (D.df.val D.obsCol) (D.drawn sample) (U θ) := by
  simp only [LongData.sampleLogLik, Option.getD_none, zero_mul, sub_zero, clippedLogLik, LongData.drawn]
  induction sample with
  | nil => simp
  | cons o l ih =>
    rw [List.map_cons, List.sum_cons, ih]
    simp only [LongData.obsLogLik, LongData.rows, Finset.sum_filter, LongData.prob]
    rw [← Finset.sum_add_distrib]
    refine Finset.sum_congr rfl fun r _ => ?_
    rw [List.count_cons]
    by_cases h : D.df.val D.obsCol r = o
    · simp [h]; ring
    · simp [h, Ne.symm h]

/-! ## Where the maximum of a clipped log-likelihood is -/

variable {R O K : Type} [Fintype R] [DecidableEq R] [DecidableEq O] [Fintype K] [DecidableEq K]
  {f : R → O} {a : R → ℝ} {X : Matrix R K ℝ}

/-- Only the rows of observations with choices matter. -/
private lemma logLik_rows (ha : ∀ r, 0 ≤ a r) {u v : R → ℝ} (h : ∀ r q, 0 < a q → f r = f q → u r = v r) :
    clippedLogLik f a u = clippedLogLik f a v := by
  refine Finset.sum_congr rfl fun r _ => ?_
  rcases (ha r).eq_or_lt with h0 | h0
  · rw [← h0, zero_mul, zero_mul]
  · congr 2
    unfold clippedLogit logitProb
    beta_reduce
    rw [h r r h0 rfl]
    congr 1
    exact Finset.sum_congr rfl fun s hs => by rw [h s r h0 (Sep.mem_rows.1 hs)]

/-- If a direction predicts the choices, the maximum of the log-likelihood with clipped utilities is where a utility of
an observation with choices reaches the bound. -/
theorem best_outside (ha : ∀ r, 0 ≤ a r) {δ : K → ℝ} (h : Separates f a X δ) {x : K → ℝ}
    (hx : ∀ y, clippedLogLik f a (X *ᵥ y) ≤ clippedLogLik f a (X *ᵥ x)) :
    ∃ r q, 0 < a q ∧ f r = f q ∧ 700 ≤ |(X *ᵥ x) r| := by
  classical
  by_contra hcon
  push Not at hcon
  -- the rows of observations without choices do not matter
  let X' : Matrix R K ℝ := Matrix.of fun r k => if ∃ q, 0 < a q ∧ f r = f q then X r k else 0
  have e1 : ∀ y r q, 0 < a q → f r = f q → (X *ᵥ y) r = (X' *ᵥ y) r := by
    intro y r q hq hrq
    simp only [mulVec, dotProduct, X', Matrix.of_apply]
    exact Finset.sum_congr rfl fun k _ => by rw [if_pos ⟨q, hq, hrq⟩]
  have e0 : ∀ y r, (¬ ∃ q, 0 < a q ∧ f r = f q) → (X' *ᵥ y) r = 0 := by
    intro y r hr
    simp only [mulVec, dotProduct, X', Matrix.of_apply]
    exact Finset.sum_eq_zero fun k _ => by rw [if_neg hr, zero_mul]
  have e2 : ∀ y, clippedLogLik f a (X *ᵥ y) = clippedLogLik f a (X' *ᵥ y) := fun y => logLik_rows ha (e1 y)
  have h' : Separates f a X' δ := by
    obtain ⟨h1, r, s, hr, hrs, hlt⟩ := h
    refine ⟨fun r s hr hs => ?_, r, s, hr, hrs, ?_⟩
    · rw [← e1 δ s r hr hs, ← e1 δ r r hr rfl]; exact h1 r s hr hs
    · rw [← e1 δ s r hr hrs, ← e1 δ r r hr rfl]; exact hlt
  have hin : ∀ r, |(X' *ᵥ x) r| < 700 := by
    intro r
    by_cases hr : ∃ q, 0 < a q ∧ f r = f q
    · obtain ⟨q, hq, hrq⟩ := hr
      rw [← e1 x r q hq hrq]
      exact hcon r q hq hrq
    · rw [e0 x r hr, abs_zero]; norm_num
  obtain ⟨t, -, -, hlt⟩ := (separated_never_best ha h' hin).2
  rw [← e2, ← e2] at hlt
  exact absurd (hx _) (not_le.2 hlt)

/-- If the maximum of the log-likelihood with clipped utilities is where no utility reaches the bound, it is a maximum
likelihood estimate. -/
theorem best_inside (ha : ∀ r, 0 ≤ a r) {x : K → ℝ}
    (hx : ∀ y, clippedLogLik f a (X *ᵥ y) ≤ clippedLogLik f a (X *ᵥ x)) (hin : ∀ r, |(X *ᵥ x) r| < 700) :
    IsLogitEstimate f a X [] x x := by
  have hg : HasPartials (fun θ => clippedLogLik f a (X *ᵥ θ)) (fun k => ∑ r, a r * Sep.slope f (X *ᵥ x) (fun s => X s k) r) x :=
    fun k => Sep.clipped_deriv X hin k
  refine (stationary_iff_estimate ha [] hin hg).1 fun k _ => ?_
  refine IsLocalMax.hasDerivAt_eq_zero ?_ (hg k)
  refine Filter.Eventually.of_forall fun t => ?_
  beta_reduce
  rw [update_eq_self]
  exact hx _

/-! ## When the stored Hessian is regular -/

theorem covHessian_regular {D : LongData} {ridge : Option ℝ} {n : ℕ} {U : (Fin n → ℝ) → Fin D.df.numRows → ℝ}
    {H : Matrix (Fin n) (Fin n) ℝ} {x : Fin n → ℝ} (h : D.CovHessian ridge U H x) (h0 : ridge.getD 0 = 0) :
    ∃ J, HasJacobian U J x ∧ (IsUnit H.det ↔ ∀ v, (∀ r s, D.df.val D.obsCol r = D.df.val D.obsCol s →
      (J *ᵥ v) r = (J *ᵥ v) s) → v = 0) := by
  obtain ⟨J, hJ, hH⟩ := h
  refine ⟨J, hJ, covariance_regular_iff (D.df.val D.obsCol) (p := D.prob (U x)) 
    (fun r => Sep.prob_pos (D.df.val D.obsCol) (fun r => clip700 (U x r)) r)
    (fun r => Sep.prob_sum (D.df.val D.obsCol) (fun r => clip700 (U x r)) r) J fun i j => ?_⟩
  rw [hH i j, h0]
  simp only [mul_zero, zero_mul, sub_zero]
  rfl

/-- Described utilities are linear: their Jacobian holds the values of the columns. -/
theorem described_jacobian {df : Frame ℝ} {altCol : String} {cols : List (ColDesc ℝ)} {n : ℕ} (hn : n = cols.length)
    {J : Matrix (Fin df.numRows) (Fin n) ℝ} {x : Fin n → ℝ}
    (h : HasJacobian (fun θ r => rowIndex df altCol cols (List.ofFn θ) r) J x) : J = describedMatrix df altCol cols n := by
  ext r k
  have h1 := h r k
  have h2 : (fun t => rowIndex df altCol cols (List.ofFn (update x k t)) r) =
      fun t => (describedMatrix df altCol cols n *ᵥ update x k t) r := by
    funext t; rw [described_dot hn]
  have h1' : HasDerivAt (fun t => rowIndex df altCol cols (List.ofFn (update x k t)) r) (J r k) (x k) := h1
  rw [h2] at h1'
  have h3 : HasDerivAt (fun t => (describedMatrix df altCol cols n *ᵥ update x k t) r)
      (describedMatrix df altCol cols n r k) (x k) := by
    simp only [Sep.mulVec_update]
    simpa using (((hasDerivAt_id (x k)).sub_const (x k)).mul_const (describedMatrix df altCol cols n r k)).const_add
      ((describedMatrix df altCol cols n *ᵥ x) r)
  exact h1'.unique h3

/-- **C109** (which fits are stored). A fit of a multinomial logit model that got to its results, with a ridge penalty
that is not negative, stores them without an exception exactly when the penalty is positive or no combination of the
described columns is constant within every observation - whatever the estimates are. -/
theorem mnl_fit_stores_iff {env : Env ℝ} {ty : String} {df : Frame ℝ} {a : ModelArgs ℝ} {m : ChoiceModel ℝ}
    (hm : createChoiceModel env ty df a = .ok m) (hcls : m.cls = .mnl) {s : List (String × SpecVal ℝ)}
    (hspec : m.args.specification = encodeAll s) (hkeys : (s.map Prod.fst).Nodup)
    (hnm : ∀ ns, m.args.names = some ns → (ns.map Prod.fst).Nodup)
    {alts : List ℝ} (ha : AltsOf m.data m.args.altIdCol alts)
    {chosen : ℝ → Fin m.data.numRows} (hc : OneChoicePerObs m.data m.args.obsIdCol m.args.choiceCol chosen)
    {solver : Solver} (label : PyVal ℝ → String) (sf : ℝ → ℝ) (before : List FitCall) (args : FitArgs)
    (hpoint : args.justPoint = false) (hridge : 0 ≤ args.ridge.getD 0)
    {r : FitResults} (hr : mnlFit solver m args = .ok r) :
    (fitCall sf (mnlFitCall solver m args) (fitCalls sf before (freshFit label m))).2 = none ↔
      0 < args.ridge.getD 0 ∨ Identified m.data m.args.obsIdCol m.args.altIdCol (specColumns alts s) := by
  obtain ⟨h1, h2⟩ := mnl_fit_stores hm hcls hspec hkeys hnm ha hc label sf before args hpoint hr
  rw [h1]
  rcases hridge.lt_or_eq with h0 | h0
  · exact ⟨fun _ => .inl h0, fun _ => h2 h0⟩
  have hnot : ¬ 0 < args.ridge.getD 0 := by rw [← h0]; exact lt_irrefl 0
  rw [or_iff_right hnot]
  obtain ⟨x₀, hrows, -, -, -, hrun⟩ := mnl_run hr
  obtain ⟨hlen, U, hU, hd, -⟩ := mnl_describes hm hcls hspec [] ha hc hrows args.ridge
  unfold runEstimation runEstimationWith at hrun
  simp only [bind, Except.bind] at hrun
  split at hrun
  · cases hrun
  rename_i ps hps
  split at hrun
  · cases hrun
  rename_i rep hrep
  obtain ⟨h, -, hpr⟩ := hd.probs rep.x
  rw [hpr] at hrun
  simp only [Except.ok.injEq] at hrun
  obtain ⟨J, hJ, hreg⟩ := covHessian_regular (hd.covariance ps rep.x trivial) h0.symm
  subst hrun
  subst hU
  refine hreg.trans ?_
  have hJ' := described_jacobian (n := m.design.length) hlen hJ
  unfold Identified
  rw [← hlen]
  have e : ∀ v r, (J *ᵥ v) r = rowIndex m.data m.args.altIdCol (specColumns alts s) (List.ofFn v) r := fun v r => by
    rw [hJ']
    exact congrFun (described_dot (n := m.design.length) hlen v) r
  refine forall_congr' fun v => imp_congr_left ?_
  simp only [e]
  rfl

/-- **C109** (which fits succeed). With a ridge penalty that is not negative and an optimiser that always returns, or
returns whenever its objective has a minimum, a fit of a multinomial logit model ends without an exception exactly
when it was given starting values with one value per described column and none of the keywords for other models, the
ids of the table, which has rows, ascend, every position to be held fixed exists, and the penalty is positive or no
combination of the columns is constant within every observation. -/
theorem mnl_fit_succeeds_iff {env : Env ℝ} {ty : String} {df : Frame ℝ} {a : ModelArgs ℝ} {m : ChoiceModel ℝ}
    (hm : createChoiceModel env ty df a = .ok m) (hcls : m.cls = .mnl) {s : List (String × SpecVal ℝ)}
    (hspec : m.args.specification = encodeAll s) (hkeys : (s.map Prod.fst).Nodup)
    (hnm : ∀ ns, m.args.names = some ns → (ns.map Prod.fst).Nodup)
    {alts : List ℝ} (ha : AltsOf m.data m.args.altIdCol alts)
    {chosen : ℝ → Fin m.data.numRows} (hc : OneChoicePerObs m.data m.args.obsIdCol m.args.choiceCol chosen)
    {solver : Solver} (label : PyVal ℝ → String) (sf : ℝ → ℝ) (before : List FitCall) (args : FitArgs)
    (hpoint : args.justPoint = false) (hridge : 0 ≤ args.ridge.getD 0) (hsol : Returns solver args.ridge) :
    (fitCall sf (mnlFitCall solver m args) (fitCalls sf before (freshFit label m))).2 = none ↔
      (∃ x : List ℝ, args.init = ⟨some x, none, none, none⟩ ∧ x.length = (specColumns alts s).length) ∧
      (m.data.colList m.args.obsIdCol).Pairwise (· ≤ ·) ∧ 0 < m.data.numRows ∧
      (∀ z ∈ args.constrained.getD [], ∃ i, PosIs (specColumns alts s).length z i) ∧
      (0 < args.ridge.getD 0 ∨ Identified m.data m.args.obsIdCol m.args.altIdCol (specColumns alts s)) := by
  have h1 := mnl_fit_accepts hm hcls hspec ha hc args hsol
  constructor
  · intro hst
    obtain ⟨r, hr⟩ : ∃ r, mnlFit solver m args = .ok r := by
      unfold mnlFitCall at hst
      rw [hpoint] at hst
      cases hf : mnlFit solver m args with
      | error e => simp [hf, fitOutcome, fitCall] at hst
      | ok r => exact ⟨r, rfl⟩
    obtain ⟨c1, c2, c3, c4⟩ := h1.1 ⟨r, hr⟩
    exact ⟨c1, c2, c3, c4,
      (mnl_fit_stores_iff hm hcls hspec hkeys hnm ha hc label sf before args hpoint hridge hr).1 hst⟩
  · rintro ⟨c1, c2, c3, c4, c5⟩
    obtain ⟨r, hr⟩ := h1.2 ⟨c1, c2, c3, c4⟩
    exact (mnl_fit_stores_iff hm hcls hspec hkeys hnm ha hc label sf before args hpoint hridge hr).2 c5

/-! ## C120: what is stored for data without an estimate -/

/-- **C120** (fits). Let a multinomial logit be fitted without a ridge penalty and store its results. If no utility is
clipped at the parameters, the stored gradient says whether they are a maximum likelihood estimate: it is zero at the
coefficients that are not fixed exactly when they are, and it is not zero, and points along it, if a direction predicts
the choices. An optimiser that finds global maxima stores the maximum likelihood estimate unless a utility is clipped;
and if there is no estimate, because a direction predicts the choices, it stops where one is. -/
theorem mnl_fit_separated {env : Env ℝ} {ty : String} {df : Frame ℝ} {a : ModelArgs ℝ} {m : ChoiceModel ℝ}
    (hm : createChoiceModel env ty df a = .ok m) (hcls : m.cls = .mnl) {s : List (String × SpecVal ℝ)}
    (hspec : m.args.specification = encodeAll s) {alts ids : List ℝ} (ha : AltsOf m.data m.args.altIdCol alts)
    (hids : AltsOf m.data m.args.obsIdCol ids) {chosen : ℝ → Fin m.data.numRows}
    (hc : OneChoicePerObs m.data m.args.obsIdCol m.args.choiceCol chosen)
    {solver : Solver} (hsol : FaithfulSolver solver) (label : PyVal ℝ → String) (sf : ℝ → ℝ)
    (before after : List FitCall) (args : FitArgs) (hpoint : args.justPoint = false) (hridge : args.ridge = none)
    (hst : (fitCall sf (mnlFitCall solver m args) (fitCalls sf before (freshFit label m))).2 = none)
    (hafter : ∀ d ∈ after, ∀ r, d.outcome ≠ .results r) :
    let t := (fitCalls sf (before ++ mnlFitCall solver m args :: after) (freshFit label m)).attrs
    let f := m.data.val m.args.obsIdCol
    let y := m.data.val m.args.choiceCol
    let n := (specColumns alts s).length
    let X := describedMatrix m.data m.args.altIdCol (specColumns alts s) n
    ∃ (x : Fin n → ℝ) (labels : Fin n → String), t.params = some ⟨List.ofFn labels, List.ofFn x⟩ ∧
      ((∀ r, |(X *ᵥ x) r| < 700) → ∃ g : Fin n → ℝ, t.gradient = some ⟨List.ofFn labels, List.ofFn g⟩ ∧
        (∀ fixed, (∀ k, k ∉ fixed → g k = 0) ↔ IsLogitEstimate f y X fixed x x) ∧
        ∀ δ, Separates f y X δ → 0 < ∑ k, g k * δ k) ∧
      (MinimisingSolver solver → (∀ r, |(X *ᵥ x) r| < 700) → IsLogitEstimate f y X [] x x) ∧
      (MinimisingSolver solver → (∃ δ, Separates f y X δ) → ∃ r, 700 ≤ |(X *ᵥ x) r|) := by
  intro t f y n X
  have hy : ∀ r, 0 ≤ y r := choices_nonneg hc
  obtain ⟨n', x, labels, H, F, hn, -, -, hrep, hmax, hder, -, -⟩ :=
    mnl_fit_report hm hcls hspec ha hids hc hsol label sf before after args hpoint hst hafter
  obtain rfl : n' = n := hn
  rw [hridge] at hrep hmax hder
  have e : ∀ θ : Fin n → ℝ, (tableOf m ids).logLik none
      (fun (θ : Fin n → ℝ) r => rowIndex m.data m.args.altIdCol (specColumns alts s) (List.ofFn θ) r) θ =
      clippedLogLik f y (X *ᵥ θ) := fun θ => by
    rw [logLik_clipped, show X *ᵥ θ = _ from described_dot rfl θ]; rfl
  have hb : ∀ r, |rowIndex m.data m.args.altIdCol (specColumns alts s) (List.ofFn x) r| = |(X *ᵥ x) r| := fun r => by
    rw [show X *ᵥ x = _ from described_dot rfl x]
  refine ⟨x, labels, hrep.statistics.params, fun hin => ?_, fun hmin hin => ?_, fun hmin ⟨δ, hδ⟩ => ?_⟩
  · obtain ⟨g, hg, hp⟩ := (hder fun r => by rw [hb]; exact hin r).1.gradient
    have hp' : HasPartials (fun θ => clippedLogLik f y (X *ᵥ θ)) g x := by
      rw [show (fun θ => clippedLogLik f y (X *ᵥ θ)) = _ from (funext e).symm]; exact hp
    exact ⟨g, hg, fun fixed => stationary_iff_estimate hy fixed hin hp',
      fun δ hδ => (separated_never_best hy hδ hin).1 g hp'⟩
  · refine best_inside hy (fun z => ?_) hin
    rw [← e, ← e]
    exact hmax hmin z
  · obtain ⟨r, -, -, -, h⟩ := best_outside hy hδ (x := x) fun z => by
      rw [← e, ← e]
      exact hmax hmin z
    exact ⟨r, h⟩

/-- A column that is one in the rows of an alternative. -/
theorem constant_column {df : Frame ℝ} {altCol : String} {cols : List (ColDesc ℝ)} {k : Fin cols.length} {v : String}
    {b : ℝ} (hk : cols[k] = .alt v b) (hv : ∀ r, df.val altCol r = b → df.val v r = 1) :
    (∀ r, df.val altCol r = b → describedMatrix df altCol cols cols.length r k = 1) ∧
    ∀ r, df.val altCol r ≠ b → describedMatrix df altCol cols cols.length r k = 0 := by
  have e : ∀ r, describedMatrix df altCol cols cols.length r k = if df.val altCol r = b then df.val v r else 0 := by
    intro r
    have : cols[k.val]? = some (.alt v b) := by
      rw [List.getElem?_eq_getElem k.2]
      exact congrArg some hk
    simp only [describedMatrix, Matrix.of_apply, this, Option.map_some, Option.getD_some, ColDesc.value]
  exact ⟨fun r h => by rw [e, if_pos h, hv r h], fun r h => by rw [e, if_neg h]⟩

/-- **C120** (an alternative nobody chose). The constructors accept data in which nobody chose an alternative, and a
multinomial logit with a constant for it can be fitted. But the parameters stored are never an estimate of this
constant: without a ridge penalty, unless a utility is clipped, the stored derivative with respect to it is negative -
the fit claims a better value below -, and with an optimiser that finds global maxima some utility is clipped. -/
theorem mnl_fit_never_chosen {env : Env ℝ} {ty : String} {df : Frame ℝ} {a : ModelArgs ℝ} {m : ChoiceModel ℝ}
    (hm : createChoiceModel env ty df a = .ok m) (hcls : m.cls = .mnl) {s : List (String × SpecVal ℝ)}
    (hspec : m.args.specification = encodeAll s) {alts ids : List ℝ} (ha : AltsOf m.data m.args.altIdCol alts)
    (hids : AltsOf m.data m.args.obsIdCol ids) {chosen : ℝ → Fin m.data.numRows}
    (hc : OneChoicePerObs m.data m.args.obsIdCol m.args.choiceCol chosen)
    {solver : Solver} (hsol : FaithfulSolver solver) (label : PyVal ℝ → String) (sf : ℝ → ℝ)
    (before after : List FitCall) (args : FitArgs) (hpoint : args.justPoint = false) (hridge : args.ridge = none)
    (hst : (fitCall sf (mnlFitCall solver m args) (fitCalls sf before (freshFit label m))).2 = none)
    (hafter : ∀ d ∈ after, ∀ r, d.outcome ≠ .results r)
    {k : Fin (specColumns alts s).length} {v : String} {b : ℝ} (hk : (specColumns alts s)[k] = .alt v b)
    (hv : ∀ r, m.data.val m.args.altIdCol r = b → m.data.val v r = 1)
    (hb : ∃ r, m.data.val m.args.altIdCol r = b)
    (hno : ∀ r, m.data.val m.args.altIdCol r = b → m.data.val m.args.choiceCol r = 0) :
    let t := (fitCalls sf (before ++ mnlFitCall solver m args :: after) (freshFit label m)).attrs
    let n := (specColumns alts s).length
    let U := fun (θ : Fin n → ℝ) r => rowIndex m.data m.args.altIdCol (specColumns alts s) (List.ofFn θ) r
    ∃ (x : Fin n → ℝ) (labels : Fin n → String), t.params = some ⟨List.ofFn labels, List.ofFn x⟩ ∧
      ((∀ r, |U x r| < 700) → ∃ g : Fin n → ℝ, t.gradient = some ⟨List.ofFn labels, List.ofFn g⟩ ∧ g k < 0) ∧
      (MinimisingSolver solver → ∃ r, 700 ≤ |U x r|) := by
  intro t n U
  obtain ⟨x, labels, h1, h2, -, h3⟩ := mnl_fit_separated hm hcls hspec ha hids hc hsol label sf before after args hpoint
    hridge hst hafter
  have hU : ∀ θ : Fin n → ℝ, describedMatrix m.data m.args.altIdCol (specColumns alts s) n *ᵥ θ = U θ :=
    fun θ => described_dot rfl θ
  obtain ⟨r, hr⟩ := hb
  obtain ⟨k1, k0⟩ := constant_column hk hv
  have hsep := never_chosen_separates (f := m.data.val m.args.obsIdCol) (a := m.data.val m.args.choiceCol)
    (A := fun r => m.data.val m.args.altIdCol r = b) k1 k0 (fun r h => (hno r h).le)
    (r := chosen (m.data.val m.args.obsIdCol r)) (s := r) (by rw [hc.one]; exact one_pos) hr (hc.mem r).symm
  refine ⟨x, labels, h1, fun hin => ?_, fun hmin => ?_⟩
  · obtain ⟨g, hg, -, hpos⟩ := h2 fun r => by rw [hU]; exact hin r
    refine ⟨g, hg, ?_⟩
    have := hpos _ hsep
    simpa [Finset.sum_neg_distrib, Pi.single_apply] using this
  · obtain ⟨r, h⟩ := h3 hmin ⟨_, hsep⟩
    exact ⟨r, by rw [← hU]; exact h⟩

/-! ## Replicates -/

/-- **C120** (jackknife). Let the jackknife of a multinomial logit use no ridge penalty and an optimiser that finds
global maxima. If a direction predicts the choices of all observations but one - an alternative with a constant that
only this observation chose is enough, `jackknife_lone_chooser` -, the replicate without it is no estimate: some
utility of another observation is clipped there. -/
theorem jackknife_separated {env : Env ℝ} {ty : String} {df : Frame ℝ} {a : ModelArgs ℝ} {m : ChoiceModel ℝ}
    (hm : createChoiceModel env ty df a = .ok m) (hcls : m.cls = .mnl) {s : List (String × SpecVal ℝ)}
    (hspec : m.args.specification = encodeAll s) {alts ids : List ℝ}
    (ha : AltsOf m.data m.args.altIdCol alts) (hids : AltsOf m.data m.args.obsIdCol ids)
    {chosen : ℝ → Fin m.data.numRows} (hc : OneChoicePerObs m.data m.args.obsIdCol m.args.choiceCol chosen)
    {bfgs : Solver} {extract : ChoiceModel ℝ → List (PyVal ℝ) → List ℝ → ℕ → Except Err (List ℝ)}
    {mnl : MnlArgs ℝ PointOptions} {opts : PointOptions} {reps : List (List ℝ)} {n : ℕ}
    (hn : n = (specColumns alts s).length) (hinit : (mnl.init.getD (List.replicate n 0)).length = n)
    (hridge : (mnl.kwargs.getD ⟨bfgs, none, none⟩).ridge = none)
    (hmin : MinimisingSolver (mnl.kwargs.getD ⟨bfgs, none, none⟩).solver)
    (h : generateJackknifeReplicates env (pointFitter bfgs) extract m n mnl opts = .ok reps)
    {j : ℕ} (hj : j < ids.length) (hj' : j < reps.length) {δ : Fin n → ℝ}
    (hδ : Separates (m.data.val m.args.obsIdCol) ((tableOf m ids).others ids[j])
      (describedMatrix m.data m.args.altIdCol (specColumns alts s) n) δ) :
    ∃ x : Fin n → ℝ, reps[j] = List.ofFn x ∧ ∃ r, m.data.val m.args.obsIdCol r ≠ ids[j] ∧
      700 ≤ |rowIndex m.data m.args.altIdCol (specColumns alts s) (List.ofFn x) r| := by
  have hU := mnl_documented hcls (alts := alts) (cols := specColumns alts s) hn.symm
  obtain ⟨-, h1⟩ := jackknife_replicates_maximise hm (by rw [hcls]; decide) hspec ha (by rw [hcls]; simp) hids hc hU
    (fun _ => hinit) (fun h => absurd hcls h) h
  obtain ⟨x₀, x, hx, -, -, hmax⟩ := h1 j hj hj'
  rw [if_pos hcls, hridge] at hmax
  refine ⟨x, hx, ?_⟩
  have hD : ∀ r, 0 ≤ (tableOf m ids).others ids[j] r := fun r => by
    unfold LongData.others
    split_ifs
    · exact le_rfl
    · exact choices_nonneg hc r
  have e : ∀ θ : Fin n → ℝ, (tableOf m ids).logLikWithout ids[j] none
      (fun (θ : Fin n → ℝ) r => rowIndex m.data m.args.altIdCol (specColumns alts s) (List.ofFn θ) r) θ =
      clippedLogLik (m.data.val m.args.obsIdCol) ((tableOf m ids).others ids[j])
        (describedMatrix m.data m.args.altIdCol (specColumns alts s) n *ᵥ θ) := fun θ => by
    rw [logLikWithout_clipped, described_dot hn θ]; rfl
  obtain ⟨r, q, hq, hrq, hr⟩ := best_outside hD hδ (x := x) fun z =>
    (e z).symm.trans_le ((hmax hmin z).trans (e x).le)
  refine ⟨r, fun hr' => ?_, le_of_le_of_eq hr (congrArg abs (congrFun (described_dot hn x) r))⟩
  have hq' : m.data.val m.args.obsIdCol q = ids[j] := hrq.symm.trans hr'
  unfold LongData.others at hq
  rw [if_pos (show (tableOf m ids).df.val (tableOf m ids).obsCol q = ids[j] from hq')] at hq
  exact lt_irrefl _ hq

/-- **C120** (the only observation that chose an alternative). Let the described columns contain a constant for an
alternative that only one observation chose, although another one had it. With no ridge penalty and an optimiser that
finds global maxima, the jackknife's replicate without this observation is no estimate: some utility of another
observation is clipped there. -/
theorem jackknife_lone_chooser {env : Env ℝ} {ty : String} {df : Frame ℝ} {a : ModelArgs ℝ} {m : ChoiceModel ℝ}
    (hm : createChoiceModel env ty df a = .ok m) (hcls : m.cls = .mnl) {s : List (String × SpecVal ℝ)}
    (hspec : m.args.specification = encodeAll s) {alts ids : List ℝ}
    (ha : AltsOf m.data m.args.altIdCol alts) (hids : AltsOf m.data m.args.obsIdCol ids)
    {chosen : ℝ → Fin m.data.numRows} (hc : OneChoicePerObs m.data m.args.obsIdCol m.args.choiceCol chosen)
    {bfgs : Solver} {extract : ChoiceModel ℝ → List (PyVal ℝ) → List ℝ → ℕ → Except Err (List ℝ)}
    {mnl : MnlArgs ℝ PointOptions} {opts : PointOptions} {reps : List (List ℝ)}
    (hinit : (mnl.init.getD (List.replicate (specColumns alts s).length 0)).length = (specColumns alts s).length)
    (hridge : (mnl.kwargs.getD ⟨bfgs, none, none⟩).ridge = none)
    (hmin : MinimisingSolver (mnl.kwargs.getD ⟨bfgs, none, none⟩).solver)
    (h : generateJackknifeReplicates env (pointFitter bfgs) extract m (specColumns alts s).length mnl opts = .ok reps)
    {j : ℕ} (hj : j < ids.length) (hj' : j < reps.length)
    {k : Fin (specColumns alts s).length} {v : String} {b : ℝ} (hk : (specColumns alts s)[k] = .alt v b)
    (hv : ∀ r, m.data.val m.args.altIdCol r = b → m.data.val v r = 1)
    (hlone : ∀ r, m.data.val m.args.altIdCol r = b → m.data.val m.args.choiceCol r ≠ 0 →
      m.data.val m.args.obsIdCol r = ids[j])
    (hother : ∃ r, m.data.val m.args.altIdCol r = b ∧ m.data.val m.args.obsIdCol r ≠ ids[j]) :
    ∃ x : Fin (specColumns alts s).length → ℝ, reps[j] = List.ofFn x ∧ ∃ r, m.data.val m.args.obsIdCol r ≠ ids[j] ∧
      700 ≤ |rowIndex m.data m.args.altIdCol (specColumns alts s) (List.ofFn x) r| := by
  obtain ⟨r, hr, hr'⟩ := hother
  obtain ⟨k1, k0⟩ := constant_column hk hv
  refine jackknife_separated hm hcls hspec ha hids hc rfl hinit hridge hmin h hj hj'
    (never_chosen_separates (A := fun r => m.data.val m.args.altIdCol r = b) k1 k0 (fun q hq => ?_)
      (r := chosen (m.data.val m.args.obsIdCol r)) (s := r) ?_ hr (hc.mem r).symm)
  · unfold LongData.others
    split_ifs with h0
    · exact le_rfl
    · by_contra hcon
      exact h0 (hlone q hq (not_le.1 hcon).ne')
  · unfold LongData.others
    rw [if_neg]
    · exact one_pos.trans_eq (hc.one r).symm
    · intro h0
      exact hr' ((hc.mem r).symm.trans h0)

/-- **C120** (bootstrap). Let the bootstrap of a multinomial logit use no ridge penalty and an optimiser that finds global
maxima. Whenever a direction predicts the choices of a sample, the replicate of this sample is no estimate: some
utility of an observation in the sample is clipped there. -/
theorem bootstrap_separated {env : Env ℝ} {ty : String} {df : Frame ℝ} {a : ModelArgs ℝ} {m : ChoiceModel ℝ}
    (hm : createChoiceModel env ty df a = .ok m) (hcls : m.cls = .mnl) {s : List (String × SpecVal ℝ)}
    (hspec : m.args.specification = encodeAll s) {alts : List ℝ} (ids : List ℝ)
    (ha : AltsOf m.data m.args.altIdCol alts)
    {chosen : ℝ → Fin m.data.numRows} (hc : OneChoicePerObs m.data m.args.obsIdCol m.args.choiceCol chosen)
    (hboot : "bootstrap_id" ∉ m.data.columns) {g : Rng} (hg : ChoosesMembers g) {bfgs : Solver}
    {extract : ChoiceModel ℝ → List (PyVal ℝ) → List ℝ → ℕ → Except Err (List ℝ)}
    {mnl : MnlArgs ℝ PointOptions} {opts : PointOptions} {numSamples : ℕ} {seed : Option IntArg}
    {st st' : g.State} {reps : List (List ℝ)} {n : ℕ} (hn : n = (specColumns alts s).length)
    (hinit : (mnl.init.getD (List.replicate n 0)).length = n)
    (hridge : (mnl.kwargs.getD ⟨bfgs, none, none⟩).ridge = none)
    (hmin : MinimisingSolver (mnl.kwargs.getD ⟨bfgs, none, none⟩).solver)
    (h : bootstrapRun g env bfgs extract m n mnl opts numSamples seed st = .ok (reps, st')) :
    ∃ samples, samplesRng g (m.data.val m.args.obsIdCol) (m.data.val m.args.altIdCol) (m.data.val m.args.choiceCol)
        numSamples seed st = .ok (samples, st') ∧ samples.length = numSamples ∧ reps.length = numSamples ∧
      ∀ i (hi : i < samples.length) (hi' : i < reps.length),
        (∃ δ, Separates (m.data.val m.args.obsIdCol) ((tableOf m ids).drawn samples[i])
          (describedMatrix m.data m.args.altIdCol (specColumns alts s) n) δ) →
        ∃ x : Fin n → ℝ, reps[i] = List.ofFn x ∧ ∃ r, m.data.val m.args.obsIdCol r ∈ samples[i] ∧
          700 ≤ |rowIndex m.data m.args.altIdCol (specColumns alts s) (List.ofFn x) r| := by
  have hU := mnl_documented hcls (alts := alts) (cols := specColumns alts s) hn.symm
  obtain ⟨h0, samples, h1, h2, h3⟩ := bootstrap_replicates_maximise hm (by rw [hcls]; decide) hspec ids ha
    (by rw [hcls]; simp) hc hboot hU hg (fun _ => hinit) (fun h => absurd hcls h) h
  refine ⟨samples, h1, h2, h0, fun i hi hi' ⟨δ, hδ⟩ => ?_⟩
  obtain ⟨-, x₀, x, hx, -, -, hmax⟩ := h3 i hi hi'
  rw [if_pos hcls, hridge] at hmax
  refine ⟨x, hx, ?_⟩
  have hD : ∀ r, 0 ≤ (tableOf m ids).drawn samples[i] r := fun r =>
    mul_nonneg (Nat.cast_nonneg _) (choices_nonneg hc r)
  have e : ∀ θ : Fin n → ℝ, (tableOf m ids).sampleLogLik samples[i] none
      (fun (θ : Fin n → ℝ) r => rowIndex m.data m.args.altIdCol (specColumns alts s) (List.ofFn θ) r) θ =
      clippedLogLik (m.data.val m.args.obsIdCol) ((tableOf m ids).drawn samples[i])
        (describedMatrix m.data m.args.altIdCol (specColumns alts s) n *ᵥ θ) := fun θ => by
    rw [sampleLogLik_clipped, described_dot hn θ]; rfl
  obtain ⟨r, q, hq, hrq, hr⟩ := best_outside hD hδ (x := x) fun z =>
    (e z).symm.trans_le ((hmax hmin z).trans (e x).le)
  refine ⟨r, ?_, le_of_le_of_eq hr (congrArg abs (congrFun (described_dot hn x) r))⟩
  by_contra hnot
  have hq' : m.data.val m.args.obsIdCol q ∉ samples[i] := by rw [← hrq]; exact hnot
  unfold LongData.drawn at hq
  rw [show (tableOf m ids).df.val (tableOf m ids).obsCol q = m.data.val m.args.obsIdCol q from rfl,
    List.count_eq_zero.2 hq'] at hq
  simp at hq

/-! ## Concrete cases -/

/-- Two observations of the alternatives 1 and 2, with a variable `x` and choices `y`. -/
def exFour (x y : Fin 4 → ℝ) : Frame ℝ where
  columns := ["obs", "alt", "x", "y"]
  numRows := 4
  val := fun c => if c = "alt" then ![1, 2, 1, 2] else if c = "x" then x else if c = "y" then y else ![1, 1, 2, 2]

theorem exFour_ids (x y : Fin 4 → ℝ) : AltsOf (exFour x y) "alt" [1, 2] ∧ AltsOf (exFour x y) "obs" [1, 2] := by
  refine ⟨⟨by simp, fun x => ⟨?_, ?_⟩⟩, ⟨by simp, fun x => ⟨?_, ?_⟩⟩⟩
  · intro hx
    rcases List.mem_cons.1 hx with rfl | hx
    · exact ⟨(0 : Fin 4), rfl⟩
    · rw [List.mem_singleton.1 hx]; exact ⟨(1 : Fin 4), rfl⟩
  · rintro ⟨r, rfl⟩
    change Fin 4 at r
    fin_cases r <;> simp [exFour]
  · intro hx
    rcases List.mem_cons.1 hx with rfl | hx
    · exact ⟨(0 : Fin 4), rfl⟩
    · rw [List.mem_singleton.1 hx]; exact ⟨(2 : Fin 4), rfl⟩
  · rintro ⟨r, rfl⟩
    change Fin 4 at r
    fin_cases r <;> simp [exFour]

/-- Arguments for a model with one coefficient. -/
def exFourArgs (v : SpecVal ℝ) : ModelArgs ℝ := { exLogitArgs with specification := encodeAll [("x", v)] }

theorem exFour_built (env : Env ℝ) (henv : env.badCol = fun _ => false) (x y : Fin 4 → ℝ) {v : SpecVal ℝ}
    (hv : v.ValidFor [1, 2]) (hl : (v.columns [1, 2] "x").length = 1) :
    ∃ m, createChoiceModel env "MNL" (exFour x y) (exFourArgs v) = .ok m ∧ m.cls = .mnl ∧ m.data = exFour x y ∧
      m.args = exFourArgs v ∧ m.indVarNames.length = 1 := by
  obtain ⟨d, hd, hlen, hlen'⟩ : ∃ d, createDesignMatrix env.fmt env.fmtList (exFour x y)
      (encodeAll [("x", v)]) "alt" none = .ok d ∧ d.1.length = 1 ∧ d.2.length = 1 :=
    ⟨_, design_success env.fmt env.fmtList (exFour x y) [("x", v)] "alt" [1, 2] (exFour_ids x y).1
      (by simp [exFour]) (by simp [exFour]) (by simpa using hv)
      (by
        intro h
        have := congrArg List.length h
        simp [hl] at this), by simp [hl], by simp [hl]⟩
  have hk : modelTypeToClass.lookup "MNL" = some .mnl := by decide
  have hint : addIntercept (encodeAll [("x", v)]) (exFour x y) = exFour x y := by
    simp [addIntercept, encodeAll]
  have hargs : argsFor .mnl (exFourArgs v) = exFourArgs v := rfl
  refine ⟨⟨.mnl, displayNameOf (classOf .mnl), exFour x y, d.1, d.2, exFourArgs v, none⟩, ?_, rfl, rfl, rfl, hlen'⟩
  simp only [createChoiceModel, hk]
  rw [classInit_iff, hargs]
  refine ⟨by simp [exFourArgs, exLogitArgs], baseInit_ok.2 ⟨initChecks_ok.2 ?_, ?_⟩⟩
  · simp [exFourArgs, exLogitArgs, exFour, checkNamesAndRef, checkNestSpecArg]
  · have : addIntercept (exFourArgs v).specification (exFour x y) = exFour x y := hint
    rw [this, initBuild_iff]
    refine ⟨?_, ?_, d, hd, ?_, rfl⟩
    · simp [exFourArgs, exLogitArgs, exFour, encodeAll]
    · simp [henv]
    · simp [exFourArgs, exLogitArgs]

theorem exGlobal_finds : FindsMinima exGlobal := by
  intro n f x h he
  unfold exGlobal
  exact ⟨_, dif_pos he⟩

theorem exFour_utility (x y : Fin 4 → ℝ) (θ : Fin 1 → ℝ) :
    describedMatrix (exFour x y) "alt" (specColumns [1, 2] [("x", .allSame)]) 1 *ᵥ θ = fun r => x r * θ 0 := by
  funext r
  rw [described_dot (by simp [specColumns, SpecVal.columns])]
  simp [rowIndex, specColumns, SpecVal.columns, ColDesc.value, exFour]

/-- The log-likelihood when the first observation chose its second row, and the second its first. -/
theorem exFour_logLik (u : Fin 4 → ℝ) :
    logitLogLik (![1, 1, 2, 2] : Fin 4 → ℝ) ![0, 1, 1, 0] u =
      -Real.log (1 + Real.exp (u 0 - u 1)) - Real.log (1 + Real.exp (u 3 - u 2)) := by
  have h1 : ∑ s ∈ rowsOf (![1, 1, 2, 2] : Fin 4 → ℝ) ((![1, 1, 2, 2] : Fin 4 → ℝ) 1), Real.exp (u s) =
      Real.exp (u 1) * (1 + Real.exp (u 0 - u 1)) := by
    have : rowsOf (![1, 1, 2, 2] : Fin 4 → ℝ) ((![1, 1, 2, 2] : Fin 4 → ℝ) 1) = {0, 1} := by
      ext r; rw [Sep.mem_rows]; fin_cases r <;> simp
    rw [this, Finset.sum_pair (by decide), mul_add, mul_one, ← Real.exp_add, add_sub_cancel, add_comm]
  have h2 : ∑ s ∈ rowsOf (![1, 1, 2, 2] : Fin 4 → ℝ) ((![1, 1, 2, 2] : Fin 4 → ℝ) 2), Real.exp (u s) =
      Real.exp (u 2) * (1 + Real.exp (u 3 - u 2)) := by
    have : rowsOf (![1, 1, 2, 2] : Fin 4 → ℝ) ((![1, 1, 2, 2] : Fin 4 → ℝ) 2) = {2, 3} := by
      ext r; rw [Sep.mem_rows]; fin_cases r <;> simp
    rw [this, Finset.sum_pair (by decide), mul_add, mul_one, ← Real.exp_add, add_sub_cancel]
  have e : logitLogLik (![1, 1, 2, 2] : Fin 4 → ℝ) ![0, 1, 1, 0] u =
      Real.log (logitProb (![1, 1, 2, 2] : Fin 4 → ℝ) u 1) + Real.log (logitProb (![1, 1, 2, 2] : Fin 4 → ℝ) u 2) := by
    simp [logitLogLik, Fin.sum_univ_four]
  rw [e, Sep.log_prob, Sep.log_prob, h1, h2, Real.log_mul (Real.exp_pos _).ne' (by positivity),
    Real.log_mul (Real.exp_pos _).ne' (by positivity), Real.log_exp, Real.log_exp]
  ring

theorem four_le (t : ℝ) : -Real.log (1 + Real.exp (-t)) - Real.log (1 + Real.exp t) ≤ -2 * Real.log 2 := by
  have h1 : (4 : ℝ) ≤ (1 + Real.exp (-t)) * (1 + Real.exp t) := by
    have h2 : Real.exp (-t) * Real.exp t = 1 := by rw [← Real.exp_add]; simp
    nlinarith [sq_nonneg (Real.exp t - 1), Real.exp_pos t, Real.exp_pos (-t), sq_nonneg (Real.exp (-t) - Real.exp t)]
  have h3 := Real.log_le_log (by norm_num) h1
  rw [Real.log_mul (by positivity) (by positivity), show (4 : ℝ) = 2 ^ 2 by norm_num, Real.log_pow] at h3
  push_cast at h3
  linarith

/-- **C120** (a negation). An estimate may exist and an optimiser that finds global maxima miss it. In this table of two
observations with `x` = 0, 1 and 1, 2, which chose the larger and the smaller, the maximum likelihood estimate exists
and is zero; but what the library computes is higher at 700, where the two utilities of the second observation are both
clipped to 700. So every optimiser that finds the global maximum of what it is given stores a coefficient of at least
350 in absolute value - and such fits succeed. -/
theorem clipping_beats_estimate (env : Env ℝ) (henv : env.badCol = fun _ => false) (label : PyVal ℝ → String)
    (sf : ℝ → ℝ) :
    ∃ m, createChoiceModel env "MNL" (exFour ![0, 1, 1, 2] ![0, 1, 1, 0]) (exFourArgs .allSame) = .ok m ∧
      (∀ x, IsLogitEstimate (m.data.val m.args.obsIdCol) (m.data.val m.args.choiceCol)
        (describedMatrix m.data m.args.altIdCol (specColumns [1, 2] [("x", .allSame)]) 1) [] 0 x ↔ x = 0) ∧
      (fitCall sf (mnlFitCall exGlobal m ⟨⟨some [0], none, none, none⟩, none, none, false⟩) (freshFit label m)).2 = none ∧
      ∀ solver, FaithfulSolver solver → MinimisingSolver solver → ∀ args : FitArgs, args.justPoint = false →
        args.ridge = none → (fitCall sf (mnlFitCall solver m args) (freshFit label m)).2 = none →
        ∃ labels x, (fitCall sf (mnlFitCall solver m args) (freshFit label m)).1.attrs.params = some ⟨labels, [x]⟩ ∧
          350 ≤ |x| := by
  obtain ⟨m, hm, hcls, hdata, hargs, -⟩ := exFour_built env henv ![0, 1, 1, 2] ![0, 1, 1, 0] (v := .allSame)
    (by simp [SpecVal.ValidFor]) (by simp [SpecVal.columns])
  obtain ⟨c, nm, dt, ds, ns, ar, ms⟩ := m
  obtain rfl : dt = _ := hdata
  obtain rfl : ar = _ := hargs
  obtain rfl : c = _ := hcls
  have hn : (specColumns [(1 : ℝ), 2] [("x", .allSame)]).length = 1 := by simp [specColumns, SpecVal.columns]
  obtain ⟨chosen, hc⟩ : ∃ chosen, OneChoicePerObs (exFour ![0, 1, 1, 2] ![0, 1, 1, 0]) "obs" "y" chosen := by
    refine ⟨fun o => if o = 1 then (1 : Fin 4) else (2 : Fin 4), ?_, ?_, ?_⟩ <;> intro r <;> change Fin 4 at r <;>
      fin_cases r <;> simp [exFour]
  obtain ⟨X, hX⟩ : ∃ X : Matrix (Fin 4) (Fin 1) ℝ,
      X = describedMatrix (exFour ![0, 1, 1, 2] ![0, 1, 1, 0]) "alt" (specColumns [1, 2] [("x", .allSame)]) 1 := ⟨_, rfl⟩
  have hXθ : ∀ θ : Fin 1 → ℝ, X *ᵥ θ = fun r => (![0, 1, 1, 2] : Fin 4 → ℝ) r * θ 0 := fun θ => by
    rw [hX]; exact exFour_utility _ _ θ
  have hLL : ∀ θ : Fin 1 → ℝ, logitLogLik (![1, 1, 2, 2] : Fin 4 → ℝ) ![0, 1, 1, 0] (X *ᵥ θ) =
      -Real.log (1 + Real.exp (-θ 0)) - Real.log (1 + Real.exp (θ 0)) := by
    intro θ
    rw [hXθ]
    refine (exFour_logLik _).trans ?_
    have e1 : (![0, 1, 1, 2] : Fin 4 → ℝ) 3 * θ 0 - (![0, 1, 1, 2] : Fin 4 → ℝ) 2 * θ 0 = θ 0 := by
      simp; ring
    have e2 : (![0, 1, 1, 2] : Fin 4 → ℝ) 0 * θ 0 - (![0, 1, 1, 2] : Fin 4 → ℝ) 1 * θ 0 = -θ 0 := by
      simp
    rw [e1, e2]
  have hzero : IsLogitEstimate (![1, 1, 2, 2] : Fin 4 → ℝ) ![0, 1, 1, 0] X [] 0 0 := by
    refine ⟨by simp, fun θ _ => ?_⟩
    rw [hLL, hLL]
    refine (four_le (θ 0)).trans (le_of_eq ?_)
    rw [Pi.zero_apply, neg_zero, Real.exp_zero, one_add_one_eq_two]
    ring
  have hnn : ∀ r : Fin 4, (0 : ℝ) ≤ ![0, 1, 1, 0] r := fun r => by fin_cases r <;> simp
  refine ⟨_, hm, fun x => ?_, ?_, ?_⟩
  · have key : IsLogitEstimate (![1, 1, 2, 2] : Fin 4 → ℝ) ![0, 1, 1, 0] X [] 0 x ↔ x = 0 := ?_
    · rw [hX] at key; exact key
    refine ⟨fun hx => ?_, fun h => h ▸ hzero⟩
    refine (logit_estimate_unique hnn hzero hx).2.2 fun v hv => ?_
    have := hv 1 0 1 (by simp) (by simp) rfl
    rw [hXθ] at this
    funext k
    obtain rfl : k = 0 := Subsingleton.elim _ _
    simpa using this.symm
  · rw [show freshFit label _ = fitCalls sf [] (freshFit label _) from rfl]
    refine (mnl_fit_succeeds_iff hm rfl rfl (by simp) (by intro ns h; cases h) (exFour_ids _ _).1 hc label sf [] _ rfl
      (by simp) (.inr ⟨by simp, exGlobal_finds⟩)).2 ⟨⟨[0], rfl, by simp [hn]⟩, ?_, by simp [exFour], by simp, .inr ?_⟩
    · simp [exFour, exFourArgs, exLogitArgs, Frame.colList]
    · intro v hv
      have := hv (0 : Fin 4) (1 : Fin 4) rfl
      simp [rowIndex, specColumns, SpecVal.columns, ColDesc.value, exFour] at this
      funext k
      have hk : k = ⟨0, by simp [hn]⟩ := Fin.ext (by have := k.2; simp [hn] at this; omega)
      rw [hk]
      exact this.symm
  · intro solver h1 h2 args hp hr hst
    obtain ⟨n, x, labels, H, F, hn', -, -, hrep, hmax, -, -, -⟩ :=
      mnl_fit_report hm rfl (s := [("x", .allSame)]) rfl (exFour_ids _ _).1 (exFour_ids _ _).2 hc h1 label sf [] [] args
        hp hst (by simp)
    rw [hn] at hn'
    subst hn'
    refine ⟨List.ofFn labels, x 0, hrep.statistics.params.trans (by rw [show List.ofFn x = [x 0] by simp]), ?_⟩
    by_contra hlt
    push Not at hlt
    have h700 := hmax h2 (fun _ => 700)
    rw [hr] at h700
    replace h700 := (logLik_clipped _ _ _).symm.trans_le (h700.trans_eq (logLik_clipped _ _ _))
    have e : ∀ θ : Fin 1 → ℝ, (fun r => rowIndex (exFour ![0, 1, 1, 2] ![0, 1, 1, 0]) "alt"
        (specColumns [1, 2] [("x", .allSame)]) (List.ofFn θ) r) = X *ᵥ θ := fun θ => by
      rw [hX]; exact (described_dot (by simp [hn]) θ).symm
    have h700' : clippedLogLik (![1, 1, 2, 2] : Fin 4 → ℝ) ![0, 1, 1, 0] (X *ᵥ fun _ => 700) ≤
        clippedLogLik (![1, 1, 2, 2] : Fin 4 → ℝ) ![0, 1, 1, 0] (X *ᵥ x) := by
      rw [← e, ← e]; exact h700
    have hin : ∀ r, |(X *ᵥ x) r| ≤ 700 := by
      intro r
      rw [hXθ, abs_mul]
      have h3 : |(![0, 1, 1, 2] : Fin 4 → ℝ) r| ≤ 2 := by
        change Fin 4 at r
        fin_cases r <;> simp
      have := mul_le_mul h3 hlt.le (abs_nonneg _) (by norm_num)
      linarith
    rw [Sep.clipped_eq hin, hLL] at h700'
    have h4 := h700'.trans (four_le (x 0))
    have h5 : clippedLogLik (![1, 1, 2, 2] : Fin 4 → ℝ) ![0, 1, 1, 0] (X *ᵥ fun _ => 700) =
        -Real.log (1 + Real.exp (-700)) - Real.log 2 := by
      rw [hXθ]
      refine (exFour_logLik fun r => clip700 ((![0, 1, 1, 2] : Fin 4 → ℝ) r * 700)).trans ?_
      have c0 : clip700 ((![0, 1, 1, 2] : Fin 4 → ℝ) 0 * 700) = 0 := by simp [clip700]
      have c1 : clip700 ((![0, 1, 1, 2] : Fin 4 → ℝ) 1 * 700) = 700 := by simp [clip700]
      have c2 : clip700 ((![0, 1, 1, 2] : Fin 4 → ℝ) 2 * 700) = 700 := by simp [clip700]
      have c3 : clip700 ((![0, 1, 1, 2] : Fin 4 → ℝ) 3 * 700) = 700 := by
        simp only [clip700, Matrix.cons_val]; norm_num
      rw [c0, c1, c2, c3, zero_sub, sub_self, Real.exp_zero, one_add_one_eq_two]
    rw [h5] at h4
    have h6 : Real.log (1 + Real.exp (-700)) < Real.log 2 := by
      refine Real.log_lt_log (by positivity) ?_
      have : Real.exp (-700) < 1 := by rw [← Real.exp_zero]; exact Real.exp_lt_exp.2 (by norm_num)
      linarith
    linarith

/-- Non-vacuity of `logit_estimate_exists_iff`, `stationary_iff_estimate` and `logit_estimate_unique`: the data of
`clipping_beats_estimate` have an estimate. -/
example (env : Env ℝ) (henv : env.badCol = fun _ => false) :
    ∃ (X : Matrix (Fin (exFour ![0, 1, 1, 2] ![0, 1, 1, 0]).numRows) (Fin 1) ℝ),
      (∃ x, IsLogitEstimate ((exFour ![0, 1, 1, 2] ![0, 1, 1, 0]).val "obs") ((exFour ![0, 1, 1, 2] ![0, 1, 1, 0]).val "y")
        X [] 0 x) ∧
      ¬ ∃ δ, Separates ((exFour ![0, 1, 1, 2] ![0, 1, 1, 0]).val "obs")
        ((exFour ![0, 1, 1, 2] ![0, 1, 1, 0]).val "y") X δ := by
  obtain ⟨m, hm, h1, -⟩ := clipping_beats_estimate env henv (fun _ => "") fun _ => 0
  obtain ⟨m', hm', hcls, hdata, hargs, -⟩ := exFour_built env henv ![0, 1, 1, 2] ![0, 1, 1, 0] (v := .allSame)
    (by simp [SpecVal.ValidFor]) (by simp [SpecVal.columns])
  rw [hm] at hm'
  cases hm'
  obtain ⟨c, nm, dt, ds, ns, ar, ms⟩ := m
  obtain rfl : dt = _ := hdata
  obtain rfl : ar = _ := hargs
  have h0 := (h1 0).2 rfl
  refine ⟨_, ⟨_, h0⟩, fun ⟨δ, hδ⟩ => ?_⟩
  refine (logit_estimate_exists_iff (fun r => ?_) [] 0).1 ⟨_, h0⟩ ⟨δ, by simp, hδ⟩
  change Fin 4 at r
  fin_cases r <;> simp [exFour, exFourArgs, exLogitArgs]

/-- Non-vacuity of `mnl_fit_succeeds_iff`, `mnl_fit_separated` and `mnl_fit_never_chosen`: nobody chose alternative 2,
which has a constant; a fit that stays at zero succeeds and reports a negative derivative, and one that finds the global
maximum succeeds and clips a utility. -/
example (env : Env ℝ) (henv : env.badCol = fun _ => false) (label : PyVal ℝ → String) (sf : ℝ → ℝ) :
    ∃ m, createChoiceModel env "MNL" (exFour ![1, 1, 1, 1] ![1, 0, 1, 0]) (exFourArgs (.groups [.inl 2])) = .ok m ∧
      (∃ labels g, (fitCall sf (mnlFitCall exStaying m ⟨⟨some [0], none, none, none⟩, none, none, false⟩)
        (freshFit label m)).1.attrs.gradient = some ⟨labels, [g]⟩ ∧ g < 0) ∧
      ∃ labels x, (fitCall sf (mnlFitCall exGlobal m ⟨⟨some [0], none, none, none⟩, none, none, false⟩)
        (freshFit label m)).1.attrs.params = some ⟨labels, [x]⟩ ∧ 700 ≤ |x| := by
  obtain ⟨m, hm, hcls, hdata, hargs, -⟩ := exFour_built env henv ![1, 1, 1, 1] ![1, 0, 1, 0] (v := .groups [.inl 2])
    (by simp [SpecVal.ValidFor, groupIds]) (by simp [SpecVal.columns])
  obtain ⟨c, nm, dt, ds, ns, ar, ms⟩ := m
  obtain rfl : dt = _ := hdata
  obtain rfl : ar = _ := hargs
  obtain rfl : c = _ := hcls
  obtain ⟨chosen, hc⟩ : ∃ chosen, OneChoicePerObs (exFour ![1, 1, 1, 1] ![1, 0, 1, 0]) "obs" "y" chosen := by
    refine ⟨fun o => if o = 1 then (0 : Fin 4) else (2 : Fin 4), ?_, ?_, ?_⟩ <;> intro r <;> change Fin 4 at r <;>
      fin_cases r <;> simp [exFour]
  have hn : (specColumns [(1 : ℝ), 2] [("x", .groups [.inl 2])]).length = 1 := by simp [specColumns, SpecVal.columns]
  have hU : ∀ (θ : Fin (specColumns [(1 : ℝ), 2] [("x", .groups [.inl 2])]).length → ℝ)
      (r : Fin 4), rowIndex (exFour ![1, 1, 1, 1] ![1, 0, 1, 0]) "alt" (specColumns [1, 2] [("x", .groups [.inl 2])])
        (List.ofFn θ) r = (if r = 1 ∨ r = 3 then 1 else 0) * θ ⟨0, by simp [hn]⟩ := by
    intro θ r
    fin_cases r <;> simp [rowIndex, specColumns, SpecVal.columns, ColDesc.value, exFour]
  have hst : ∀ solver, Returns solver none → (fitCall sf (mnlFitCall solver _
      ⟨⟨some [0], none, none, none⟩, none, none, false⟩) (fitCalls sf [] (freshFit label _))).2 = none := fun solver hs =>
    (mnl_fit_succeeds_iff hm rfl (s := [("x", .groups [.inl 2])]) rfl (by simp) (by intro ns h; cases h)
      (exFour_ids _ _).1 hc label sf [] _ rfl (by simp) hs).2 ⟨⟨[0], rfl, by simp [hn]⟩,
        by simp [exFour, exFourArgs, exLogitArgs, Frame.colList], by simp [exFour], by simp, .inr fun v hv => by
          have h := hv (0 : Fin 4) (1 : Fin 4) rfl
          have h' := (hU v 0).symm.trans (h.trans (hU v 1))
          funext k
          have hk : k = ⟨0, by simp [hn]⟩ := Fin.ext (by have := k.2; simp [hn] at this; omega)
          rw [hk]
          simpa using h'.symm⟩
  have key := fun solver (hf : FaithfulSolver solver) (hs : Returns solver none) =>
    mnl_fit_never_chosen hm rfl (s := [("x", .groups [.inl 2])]) rfl (exFour_ids _ _).1 (exFour_ids _ _).2 hc hf label sf
      [] [] _ rfl rfl (hst solver hs) (by simp) (k := ⟨0, by simp [hn]⟩) (v := "x") (b := 2)
      (by simp [specColumns, SpecVal.columns])
      (fun r _ => by change Fin 4 at r; fin_cases r <;> simp [exFour])
      ⟨(1 : Fin 4), by simp [exFour, exFourArgs, exLogitArgs]⟩
      (fun r h => by
        change Fin 4 at r
        revert h
        fin_cases r <;> simp [exFour, exFourArgs, exLogitArgs])
  have one : ∀ x : Fin (specColumns [(1 : ℝ), 2] [("x", .groups [.inl 2])]).length → ℝ,
      List.ofFn x = [x ⟨0, by simp [hn]⟩] := by
    intro x
    simp [specColumns, SpecVal.columns]
  refine ⟨_, hm, ?_, ?_⟩
  · obtain ⟨x, labels, h1, h2, -⟩ := key exStaying exStaying_faithful (.inl fun n f x h => ⟨_, rfl⟩)
    obtain ⟨n, x', labels', H, F, hn', -, ⟨x₀, hx₀, hopt⟩, hrep, -⟩ := mnl_fit_report hm rfl
      (s := [("x", .groups [.inl 2])]) rfl (exFour_ids _ _).1 (exFour_ids _ _).2 hc exStaying_faithful label sf [] [] _ rfl
      (hst exStaying (.inl fun n f x h => ⟨_, rfl⟩)) (by simp)
    subst hn'
    cases hx₀
    have hx' : x' ⟨0, by simp [hn]⟩ = 0 := by
      obtain ⟨f, h, rep, hrun, rfl, -⟩ := hopt.run
      cases hrun
      simp
    have hx : x ⟨0, by simp [hn]⟩ = 0 := by
      have h3 := h1.symm.trans hrep.statistics.params
      simp only [one, Option.some.injEq] at h3
      injection h3 with h4 h5
      rw [← hx']
      simpa using h5
    obtain ⟨g, hg, hneg⟩ := h2 fun r => (congrArg abs (hU x r)).trans_lt (by
      rw [hx, mul_zero, abs_zero]
      norm_num)
    exact ⟨_, _, hg.trans (by rw [one g]), hneg⟩
  · obtain ⟨x, labels, h1, -, h3⟩ := key exGlobal exGlobal_minimising.1 (.inr ⟨by simp, exGlobal_finds⟩)
    refine ⟨_, _, h1.trans (by rw [one x]), ?_⟩
    obtain ⟨r, hr⟩ := h3 exGlobal_minimising.2
    have hr' := hr.trans_eq (congrArg abs (hU x r))
    change Fin 4 at r
    by_cases h : r = 1 ∨ r = 3
    · rwa [if_pos h, one_mul] at hr'
    · rw [if_neg h, zero_mul, abs_zero] at hr'
      norm_num at hr'

/-- Non-vacuity of `jackknife_separated` and `jackknife_lone_chooser`: only the second observation chose alternative 2,
which has a constant. The jackknife runs, and its replicate without this observation is beyond 700. -/
example (env : Env ℝ) (henv : env.badCol = fun _ => false)
    (extract : ChoiceModel ℝ → List (PyVal ℝ) → List ℝ → ℕ → Except Err (List ℝ)) :
    ∃ m, createChoiceModel env "MNL" (exFour ![1, 1, 1, 1] ![1, 0, 0, 1]) (exFourArgs (.groups [.inl 2])) = .ok m ∧
      ∃ reps, generateJackknifeReplicates env (pointFitter exGlobal) extract m 1 ⟨none, none, none, none⟩
          ⟨exGlobal, none, none⟩ = .ok reps ∧
        ∃ x, reps[1]? = some [x] ∧ 700 ≤ |x| := by
  obtain ⟨m, hm, hcls, hdata, hargs, hnames⟩ := exFour_built env henv ![1, 1, 1, 1] ![1, 0, 0, 1]
    (v := .groups [.inl 2]) (by simp [SpecVal.ValidFor, groupIds]) (by simp [SpecVal.columns])
  obtain ⟨c, nm, dt, ds, ns, ar, ms⟩ := m
  obtain rfl : dt = _ := hdata
  obtain rfl : ar = _ := hargs
  obtain rfl : c = _ := hcls
  obtain ⟨chosen, hc⟩ : ∃ chosen, OneChoicePerObs (exFour ![1, 1, 1, 1] ![1, 0, 0, 1]) "obs" "y" chosen := by
    refine ⟨fun o => if o = 1 then (0 : Fin 4) else (3 : Fin 4), ?_, ?_, ?_⟩ <;> intro r <;> change Fin 4 at r <;>
      fin_cases r <;> simp [exFour]
  have hn : (specColumns [(1 : ℝ), 2] [("x", .groups [.inl 2])]).length = 1 := by simp [specColumns, SpecVal.columns]
  obtain ⟨reps, hreps⟩ := mnl_jackknife_succeeds hm rfl (s := [("x", .groups [.inl 2])]) rfl (exFour_ids _ _).1
    (by simp [exFour]) (by simp [exFour, exFourArgs, exLogitArgs, Frame.colList]) (by
      intro b hb
      rcases List.mem_cons.1 hb with rfl | hb
      · exact ⟨(0 : Fin 4), (2 : Fin 4), by simp [exFour, exFourArgs, exLogitArgs]⟩
      · rw [List.mem_singleton.1 hb]
        exact ⟨(1 : Fin 4), (3 : Fin 4), by simp [exFour, exFourArgs, exLogitArgs]⟩)
    hn hnames (bfgs := exGlobal) extract (mnl := ⟨none, none, none, none⟩) ⟨exGlobal, none, none⟩ rfl
    (.inr ⟨by simp, exGlobal_finds, choices_nonneg hc⟩) (by simp)
  refine ⟨_, hm, reps, hreps, ?_⟩
  have hU := mnl_documented (m := ⟨.mnl, nm, exFour ![1, 1, 1, 1] ![1, 0, 0, 1], ds, ns, exFourArgs (.groups [.inl 2]), ms⟩)
    rfl (alts := [1, 2]) (cols := specColumns [1, 2] [("x", .groups [.inl 2])]) hn
  obtain ⟨hl, -⟩ := jackknife_replicates_maximise hm (by simp) (s := [("x", .groups [.inl 2])]) rfl (exFour_ids _ _).1
    (by simp) (exFour_ids _ _).2 hc hU (fun _ => rfl) (fun h => absurd rfl h) hreps
  have hj' : 1 < reps.length := by rw [hl]; simp
  have hreps' : generateJackknifeReplicates env (pointFitter exGlobal) extract _
      (specColumns [(1 : ℝ), 2] [("x", .groups [.inl 2])]).length _ _ = .ok reps := hreps
  obtain ⟨x, hx, r, -, hr⟩ := jackknife_lone_chooser hm rfl (s := [("x", .groups [.inl 2])]) rfl (exFour_ids _ _).1
    (exFour_ids _ _).2 hc (bfgs := exGlobal) (mnl := ⟨none, none, none, none⟩) rfl rfl exGlobal_minimising.2 hreps' (j := 1) (by simp) hj'
    (k := ⟨0, by simp [hn]⟩) (v := "x") (b := 2)
    (by simp [specColumns, SpecVal.columns])
    (fun r _ => by change Fin 4 at r; fin_cases r <;> simp [exFour])
    (fun r h h' => by
      change Fin 4 at r
      revert h h'
      fin_cases r <;> simp [exFour, exFourArgs, exLogitArgs])
    ⟨(1 : Fin 4), by simp [exFour, exFourArgs, exLogitArgs]⟩
  refine ⟨x ⟨0, by simp [hn]⟩, ?_, ?_⟩
  · rw [List.getElem?_eq_getElem hj', hx]
    simp [specColumns, SpecVal.columns]
  · change Fin 4 at r
    have hU : rowIndex (exFour ![1, 1, 1, 1] ![1, 0, 0, 1]) "alt" (specColumns [1, 2] [("x", .groups [.inl 2])])
        (List.ofFn x) r = (if r = 1 ∨ r = 3 then 1 else 0) * x ⟨0, by simp [hn]⟩ := by
      fin_cases r <;> simp [rowIndex, specColumns, SpecVal.columns, ColDesc.value, exFour]
    have hr' := hr.trans_eq (congrArg abs hU)
    by_cases h : r = 1 ∨ r = 3
    · rwa [if_pos h, one_mul] at hr'
    · rw [if_neg h, zero_mul, abs_zero] at hr'
      norm_num at hr'

/-- Non-vacuity of `bootstrap_separated`: both observations chose the alternative with the smaller `x`, so this variable
predicts the choices of every sample; the bootstrap runs, and no replicate is an estimate. -/
example (env : Env ℝ) (henv : env.badCol = fun _ => false) (st : ℕ)
    (extract : ChoiceModel ℝ → List (PyVal ℝ) → List ℝ → ℕ → Except Err (List ℝ)) :
    ∃ m, createChoiceModel env "MNL" (exFour ![0, 1, 1, 0] ![1, 0, 0, 1]) (exFourArgs .allSame) = .ok m ∧
      ∃ reps st', bootstrapRun countingRng env exGlobal extract m 1 ⟨none, none, none, none⟩
          ⟨exGlobal, none, none⟩ 2 (some (.int 5)) st = .ok (reps, st') ∧ reps.length = 2 ∧
        ∀ rep ∈ reps, ∃ x, rep = [x] ∧ 700 ≤ |x| := by
  obtain ⟨m, hm, hcls, hdata, hargs, hnames⟩ := exFour_built env henv ![0, 1, 1, 0] ![1, 0, 0, 1]
    (v := .allSame) (by simp [SpecVal.ValidFor]) (by simp [SpecVal.columns])
  obtain ⟨c, nm, dt, ds, ns, ar, ms⟩ := m
  obtain rfl : dt = _ := hdata
  obtain rfl : ar = _ := hargs
  obtain rfl : c = _ := hcls
  obtain ⟨chosen, hc⟩ : ∃ chosen, OneChoicePerObs (exFour ![0, 1, 1, 0] ![1, 0, 0, 1]) "obs" "y" chosen := by
    refine ⟨fun o => if o = 1 then (0 : Fin 4) else (3 : Fin 4), ?_, ?_, ?_⟩ <;> intro r <;> change Fin 4 at r <;>
      fin_cases r <;> simp [exFour]
  have hn : (specColumns [(1 : ℝ), 2] [("x", .allSame)]).length = 1 := by simp [specColumns, SpecVal.columns]
  have hboot : "bootstrap_id" ∉ (exFour ![0, 1, 1, 0] ![1, 0, 0, 1]).columns := by simp [exFour]
  obtain ⟨⟨reps, st'⟩, hres⟩ := mnl_bootstrap_succeeds hm rfl (s := [("x", .allSame)]) rfl (exFour_ids _ _).1 hc (by
      intro b hb
      rcases List.mem_cons.1 hb with rfl | hb
      · exact ⟨(0 : Fin 4), by simp [exFour, exFourArgs, exLogitArgs]⟩
      · rw [List.mem_singleton.1 hb]
        exact ⟨(3 : Fin 4), by simp [exFour, exFourArgs, exLogitArgs]⟩)
    hboot hn hnames countingRng_chooses (bfgs := exGlobal) extract
    (mnl := ⟨none, none, none, none⟩) ⟨exGlobal, none, none⟩ rfl (.inr ⟨by simp, exGlobal_finds⟩) (by simp) 2
    (seed := some (.int 5)) st (Or.inr ⟨5, (5 : ℕ), rfl, by simp [countingRng]⟩)
  obtain ⟨samples, h1, h2, h3, h4⟩ := bootstrap_separated hm rfl (s := [("x", .allSame)]) rfl [1, 2] (exFour_ids _ _).1 hc
    hboot countingRng_chooses (bfgs := exGlobal) (mnl := ⟨none, none, none, none⟩) hn.symm rfl rfl exGlobal_minimising.2 hres
  have hU := mnl_documented (m := ⟨.mnl, nm, exFour ![0, 1, 1, 0] ![1, 0, 0, 1], ds, ns, exFourArgs .allSame, ms⟩)
    rfl (alts := [1, 2]) (cols := specColumns [1, 2] [("x", .allSame)]) hn
  obtain ⟨-, samples', h1', -, h5⟩ := bootstrap_replicates_maximise hm (by simp) (s := [("x", .allSame)]) rfl [1, 2]
    (exFour_ids _ _).1 (by simp) hc hboot hU countingRng_chooses (fun _ => rfl) (fun h => absurd rfl h) hres
  obtain rfl : samples' = samples := by
    have := h1'.symm.trans h1
    injection this with this
    exact congrArg Prod.fst this
  refine ⟨_, hm, reps, st', hres, h3, fun rep hrep => ?_⟩
  obtain ⟨i, hi', rfl⟩ := List.getElem_of_mem hrep
  have hi : i < samples'.length := by omega
  have hX : ∀ θ : Fin 1 → ℝ, describedMatrix (exFour ![0, 1, 1, 0] ![1, 0, 0, 1]) "alt"
      (specColumns [1, 2] [("x", .allSame)]) 1 *ᵥ θ = fun r => (![0, 1, 1, 0] : Fin 4 → ℝ) r * θ 0 := exFour_utility _ _
  obtain ⟨x, hx, r, -, hr⟩ := h4 i hi hi' ⟨fun _ => -1, by
    obtain ⟨⟨c1, c2, -⟩, -⟩ := h5 i hi hi'
    have hX1 : ∀ r : Fin 4, (describedMatrix (exFour ![0, 1, 1, 0] ![1, 0, 0, 1]) "alt"
        (specColumns [1, 2] [("x", .allSame)]) 1 *ᵥ fun _ => -1) r = (![0, 1, 1, 0] : Fin 4 → ℝ) r * -1 :=
      fun r => congrFun (hX _) r
    have hx0 : ∀ r : Fin 4, 0 ≤ (![0, 1, 1, 0] : Fin 4 → ℝ) r := fun r => by fin_cases r <;> simp
    constructor
    · intro r q hr _
      change Fin 4 at r q
      have hy : (![1, 0, 0, 1] : Fin 4 → ℝ) r ≠ 0 := fun h0 => by
        have : (samples'[i].count ((exFour ![0, 1, 1, 0] ![1, 0, 0, 1]).val "obs" r) : ℝ) * (![1, 0, 0, 1] : Fin 4 → ℝ) r = 0 := by
          rw [h0, mul_zero]
        exact absurd this hr.ne'
      have hxr : (![0, 1, 1, 0] : Fin 4 → ℝ) r = 0 := by revert hy; fin_cases r <;> simp
      refine (hX1 q).trans_le (le_of_le_of_eq ?_ (hX1 r).symm)
      rw [hxr]
      have := hx0 q
      linarith
    · have hne : 0 < samples'[i].length := by
        rw [c1, Finset.card_pos]
        exact ⟨_, Finset.mem_image_of_mem _ (Finset.mem_univ (0 : Fin 4))⟩
      obtain ⟨r, hr⟩ := c2 _ (List.getElem_mem hne)
      have hmem : ∀ o, (exFour ![0, 1, 1, 0] ![1, 0, 0, 1]).val "obs" r = o → 0 < (samples'[i].count o : ℝ) * 1 := by
        intro o ho
        rw [mul_one, Nat.cast_pos, List.count_pos_iff, ← ho]
        rw [show (exFour ![0, 1, 1, 0] ![1, 0, 0, 1]).val "obs" r = _ from hr]
        exact List.getElem_mem hne
      change Fin 4 at r
      have hcase : (exFour ![0, 1, 1, 0] ![1, 0, 0, 1]).val "obs" r = 1 ∨
          (exFour ![0, 1, 1, 0] ![1, 0, 0, 1]).val "obs" r = 2 := by fin_cases r <;> simp [exFour]
      rcases hcase with h | h
      · refine ⟨(0 : Fin 4), (1 : Fin 4), hmem 1 h, rfl, ?_⟩
        refine (hX1 1).trans_lt (lt_of_lt_of_eq ?_ (hX1 0).symm)
        simp
      · refine ⟨(3 : Fin 4), (2 : Fin 4), hmem 2 h, rfl, ?_⟩
        refine (hX1 2).trans_lt (lt_of_lt_of_eq ?_ (hX1 3).symm)
        simp⟩
  refine ⟨x 0, by rw [hx]; simp, ?_⟩
  have e := congrFun ((described_dot hn.symm x).symm.trans (hX x)) r
  have hr' := hr.trans_eq (congrArg abs e)
  rw [abs_mul] at hr'
  have : |(![0, 1, 1, 0] : Fin 4 → ℝ) r| ≤ 1 := by
    change Fin 4 at r
    fin_cases r <;> simp
  exact hr'.trans (mul_le_of_le_one_left (abs_nonneg _) this)

end

end Pylogit
