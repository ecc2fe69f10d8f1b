import Verif.Spec.Predict
import Verif.Spec.Derivs
import Verif.Spec.Results
import Verif.Model.WholeFit

/-!
# Specification vocabulary for whole fits

What the attributes of a fitted model should say about the table it was fitted on, in terms of the columns of
the table, utilities `U θ r` of its rows as functions of the parameters, and the estimates `x`.
-/

open Finset Matrix

namespace Pylogit.Spec

/-- An optimiser that reports the value of its objective at the point it returns. -/
def FaithfulSolver (solver : Solver) : Prop :=
  ∀ n f x₀ h r, solver n f x₀ h = .ok r → r.fun_ = (f r.x).1

/-- An optimiser that returns a global minimum of its objective. -/
def MinimisingSolver (solver : Solver) : Prop :=
  ∀ n f x₀ h r, solver n f x₀ h = .ok r → ∀ y, (f r.x).1 ≤ (f y).1

/-- An optimiser that returns whenever its objective has a global minimum. -/
def FindsMinima (solver : Solver) : Prop :=
  ∀ n f x₀ h, (∃ x, ∀ y, (f x).1 ≤ (f y).1) → ∃ r, solver n f x₀ h = .ok r

/-- An optimiser that always returns, or one that returns whenever its objective has a global minimum and is used
with a ridge penalty that is not negative. -/
def Returns (solver : Solver) (ridge : Option ℝ) : Prop :=
  (∀ n f x₀ h, ∃ r, solver n f x₀ h = .ok r) ∨ (0 ≤ ridge.getD 0 ∧ FindsMinima solver)

/-- An optimiser that leaves a coordinate where it started when the derivative it is given there is zero everywhere,
and returns a global minimum over the other coordinates. -/
structure CoordinateSolver (solver : Solver) : Prop where
  stays : ∀ n f x₀ h r, solver n f x₀ h = .ok r → ∀ i, (∀ θ, (f θ).2 i = 0) → r.x i = x₀ i
  minimises : ∀ n f x₀ h r, solver n f x₀ h = .ok r →
    ∀ y : Fin n → ℝ, (∀ i, (∀ θ, (f θ).2 i = 0) → y i = x₀ i) → (f r.x).1 ≤ (f y).1

/-- A choice data set in long format: the columns of observation ids and of choices, and the observation ids in
ascending order. -/
structure LongData where
  df : Frame ℝ
  obsCol : String
  choiceCol : String
  ids : List ℝ

/-- The table of a model object; `ids` are its observation ids. -/
def tableOf (m : ChoiceModel ℝ) (ids : List ℝ) : LongData := ⟨m.data, m.args.obsIdCol, m.args.choiceCol, ids⟩

/-- One if the row was chosen, else zero. -/
def LongData.y (D : LongData) (r : Fin D.df.numRows) : ℝ := D.df.val D.choiceCol r

/-- The rows of the observation with the given id. -/
noncomputable def LongData.rows (D : LongData) (i : ℝ) : Finset (Fin D.df.numRows) :=
  {r | D.df.val D.obsCol r = i}

/-- The logit probability of a row among the rows of its observation, for utilities clipped to `[-700, 700]`. -/
noncomputable def LongData.prob (D : LongData) (u : Fin D.df.numRows → ℝ) (r : Fin D.df.numRows) : ℝ :=
  clippedLogit (D.df.val D.obsCol) u r

/-- The penalised log-likelihood of the choices. -/
noncomputable def LongData.logLik (D : LongData) (ridge : Option ℝ) {n : ℕ}
    (U : (Fin n → ℝ) → Fin D.df.numRows → ℝ) (θ : Fin n → ℝ) : ℝ :=
  ∑ r, D.y r * Real.log (D.prob (U θ) r) - ridge.getD 0 * ∑ k, θ k ^ 2

/-- The log-likelihood of the choices when all rows of an observation are equally likely. -/
noncomputable def LongData.equalShares (D : LongData) : ℝ :=
  ∑ r, D.y r * Real.log (1 / (D.rows (D.df.val D.obsCol r)).card)

/-- The label of parameter `i` is that of a parameter held fixed. -/
def FixedLabel {n : ℕ} (labels : Fin n → String) (constrained : Option (List ℤ)) (i : Fin n) : Prop :=
  ∃ z ∈ constrained.getD [], ∃ j, PosIs n z j ∧ labels j = labels i

/-- The statistics of a fit with estimates `x`, whose log-likelihood is `L` and whose null log-likelihood is `L₀`. -/
structure FitStatistics (D : LongData) (L L₀ : ℝ) {n : ℕ} (labels : Fin n → String) (x : Fin n → ℝ) (t : FitAttrs) :
    Prop where
  params : t.params = some ⟨List.ofFn labels, List.ofFn x⟩
  logLik : t.logLik = some L
  llf : t.llf = some L
  nullLL : t.nullLL = some L₀
  rhoSq : t.rhoSq = some (1 - L / L₀)
  rhoBarSq : t.rhoBarSq = some (1 - (L - n) / L₀)
  aic : t.aic = some (2 * n - 2 * L)
  bic : t.bic = some (n * Real.log D.ids.length - 2 * L)
  nobs : t.nobs = some D.ids.length
  dfModel : t.dfModel = some n
  dfResid : t.dfResid = some ((D.ids.length : ℤ) - n)
  fitSummary : ∃ msg, t.message = some msg ∧
    t.fitSummary = some ⟨n, D.ids.length, L₀, L, 1 - L / L₀, 1 - (L - n) / L₀, msg⟩

/-- The fitted probabilities `p` of the rows, and what is computed from them. -/
structure FitProbabilities (D : LongData) (p : Fin D.df.numRows → ℝ) (t : FitAttrs) : Prop where
  longProbs : t.longFittedProbs = some (List.ofFn fun r => [p r])
  fittedProbs : t.fittedProbs = some (D.ids.map fun i => [∑ r ∈ D.rows i, D.y r * p r])
  residuals : t.longResiduals = some (List.ofFn fun r => [D.y r - p r])
  indChi : t.indChiSquareds = some (D.ids.map fun i => [∑ r ∈ D.rows i, (D.y r - p r) ^ 2 / p r])
  chiSquare : t.chiSquare = some (∑ r, (D.y r - p r) ^ 2 / p r)

/-- What a fit at the estimates `x` should report. -/
structure FitReport (D : LongData) (ridge : Option ℝ) {n : ℕ} (U : (Fin n → ℝ) → Fin D.df.numRows → ℝ)
    (labels : Fin n → String) (x : Fin n → ℝ) (t : FitAttrs) : Prop where
  statistics : FitStatistics D (D.logLik ridge U x) D.equalShares labels x t
  probabilities : FitProbabilities D (D.prob (U x)) t

/-- The derivatives at the estimates: the stored gradient holds the partial derivatives of the log-likelihood,
and the Fisher information `F` is the sum over the choices of the outer products of the derivatives of their
log-probabilities, minus twice the ridge penalty on the diagonal. -/
structure DerivativeReport (D : LongData) (ridge : Option ℝ) {n : ℕ} (U : (Fin n → ℝ) → Fin D.df.numRows → ℝ)
    (labels : Fin n → String) (x : Fin n → ℝ) (F : Matrix (Fin n) (Fin n) ℝ) (t : FitAttrs) : Prop where
  gradient : ∃ g, t.gradient = some ⟨List.ofFn labels, List.ofFn g⟩ ∧ HasPartials (D.logLik ridge U) g x
  fisher : ∃ S : Fin D.df.numRows → Fin n → ℝ,
    (∀ r, D.y r = 1 → HasPartials (fun θ => Real.log (D.prob (U θ) r)) (S r) x) ∧
    ∀ i j, F i j = ∑ r, D.y r * (S r i * S r j) - 2 * ridge.getD 0 * (if i = j then 1 else 0)

/-- `H` is minus the sum over observations of the covariances of the derivatives of the utilities under the fitted
probabilities, minus twice the penalty on the diagonal. -/
def LongData.CovHessian (D : LongData) (ridge : Option ℝ) {n : ℕ} (U : (Fin n → ℝ) → Fin D.df.numRows → ℝ)
    (H : Matrix (Fin n) (Fin n) ℝ) (x : Fin n → ℝ) : Prop :=
  ∃ J : Matrix (Fin D.df.numRows) (Fin n) ℝ, HasJacobian U J x ∧ ∀ i j,
    H i j = -∑ r, D.prob (U x) r * J r i *
        (J r j - ∑ s ∈ D.rows (D.df.val D.obsCol r), D.prob (U x) s * J s j) -
      2 * ridge.getD 0 * (if i = j then 1 else 0)

/-- The inference of the fit, for the stored Hessian `H` and Fisher information `F`: covariances, standard errors,
t-values and p-values, plain and robust, the last three only for parameters whose label is not that of a fixed
one. `sf` is the
survival function of the standard normal distribution. -/
structure InferenceReport (sf : ℝ → ℝ) {n : ℕ} (labels : Fin n → String) (constrained : Option (List ℤ))
    (x : Fin n → ℝ) (H F : Matrix (Fin n) (Fin n) ℝ) (t : FitAttrs) : Prop where
  hessian : t.hessian = some ⟨List.ofFn labels, List.ofFn fun i => List.ofFn (H i)⟩
  invertible : IsUnit H.det
  cov : t.cov = some ⟨List.ofFn labels, List.ofFn fun i => List.ofFn ((-H⁻¹) i)⟩
  fisher : t.fisher = some ⟨List.ofFn labels, List.ofFn fun i => List.ofFn (F i)⟩
  robustCov : t.robustCov = some ⟨List.ofFn labels, List.ofFn fun i => List.ofFn ((H⁻¹ * F * H⁻¹) i)⟩
  variances : ∀ i, 0 < (-H⁻¹) i i
  stdErrs : ∃ se, t.stdErrs = some ⟨List.ofFn labels, List.ofFn se⟩ ∧ t.bse = t.stdErrs ∧
    ∀ i, (FixedLabel labels constrained i → se i = none) ∧
      (¬ FixedLabel labels constrained i → se i = some (Real.sqrt ((-H⁻¹) i i)))
  tvalues : ∃ tv, t.tvalues = some ⟨List.ofFn labels, List.ofFn tv⟩ ∧
    ∀ i, (FixedLabel labels constrained i → tv i = none) ∧
      (¬ FixedLabel labels constrained i → tv i = some (x i / Real.sqrt ((-H⁻¹) i i)))
  pvalues : ∃ pv, t.pvalues = some ⟨List.ofFn labels, List.ofFn pv⟩ ∧
    ∀ i, (FixedLabel labels constrained i → pv i = none) ∧
      (¬ FixedLabel labels constrained i → pv i = some (2 * sf |x i / Real.sqrt ((-H⁻¹) i i)|))
  robust : ∃ se tv pv, t.robustStdErrs = some ⟨List.ofFn labels, List.ofFn se⟩ ∧
    t.robustTStats = some ⟨List.ofFn labels, List.ofFn tv⟩ ∧
    t.robustPVals = some ⟨List.ofFn labels, List.ofFn pv⟩ ∧
    ∀ i, (FixedLabel labels constrained i → se i = none ∧ tv i = none ∧ pv i = none) ∧
      (¬ FixedLabel labels constrained i → 0 < (H⁻¹ * F * H⁻¹) i i →
        se i = some (Real.sqrt ((H⁻¹ * F * H⁻¹) i i)) ∧
        tv i = some (x i / Real.sqrt ((H⁻¹ * F * H⁻¹) i i)) ∧
        pv i = some (2 * sf |x i / Real.sqrt ((H⁻¹ * F * H⁻¹) i i)|)) ∧
      ((H⁻¹ * F * H⁻¹) i i < 0 → se i = none ∧ tv i = none ∧ pv i = none)
  summary : ∃ se tv pv rse rtv rpv, t.stdErrs = some ⟨List.ofFn labels, se⟩ ∧ t.tvalues = some ⟨List.ofFn labels, tv⟩ ∧
    t.pvalues = some ⟨List.ofFn labels, pv⟩ ∧ t.robustStdErrs = some ⟨List.ofFn labels, rse⟩ ∧
    t.robustTStats = some ⟨List.ofFn labels, rtv⟩ ∧ t.robustPVals = some ⟨List.ofFn labels, rpv⟩ ∧
    t.summary = some ⟨List.ofFn labels, [("parameters", List.ofFn fun i => some (x i)), ("std_err", se),
      ("t_stats", tv), ("p_values", pv), ("robust_std_err", rse), ("robust_t_stats", rtv), ("robust_p_values", rpv)]⟩

/-- The optimisation behind a fit: the optimiser was started at `x₀`; it minimised minus the log-likelihood; the
derivatives it was given are zero at the positions held fixed, and elsewhere, where `Good` holds, right up to the
excess `E`; the matrix it was given where it stopped is minus the stored one; and where it stopped and what it said is
what is stored. -/
structure OptimiserReport (solver : Solver) {n : ℕ} (x₀ : List ℝ) (con : Option (List ℤ)) (LL : (Fin n → ℝ) → ℝ)
    (Good : (Fin n → ℝ) → Prop) (E : (Fin n → ℝ) → Fin n → ℝ) (x : Fin n → ℝ) (H : Matrix (Fin n) (Fin n) ℝ)
    (t : FitAttrs) : Prop where
  length : x₀.length = n
  run : ∃ f h rep, solver n f (fun i => x₀.getD i 0) h = .ok rep ∧ rep.x = x ∧
    t.success = some rep.success ∧ t.message = some rep.message ∧ h x = -H ∧ (∀ θ, (f θ).1 = -LL θ) ∧
    (∀ θ i, (∃ z ∈ con.getD [], PosIs n z i) → (f θ).2 i = 0) ∧
    ∀ θ, Good θ → ∀ i, (∀ z ∈ con.getD [], ¬ PosIs n z i) →
      HasDerivAt (fun s => -LL (Function.update θ i s)) ((f θ).2 i + E θ i) (θ i)

/-- The mixed second derivatives of `F` at `x`. -/
def HasSecondPartials {n : ℕ} (F : (Fin n → ℝ) → ℝ) (H : Matrix (Fin n) (Fin n) ℝ) (x : Fin n → ℝ) : Prop :=
  ∀ i j, HasDerivAt (fun t => deriv (fun s => F (Function.update (Function.update x j t) i s))
    (Function.update x j t i)) (H i j) (x j)

end Pylogit.Spec
