import Verif.Props.Estimators
import Verif.Props.Nested
import Verif.Props.HessianBlocks

/-!
# C82, continued: nested and mixed logit, and the Hessians handed to the optimiser
-/

set_option linter.unusedSectionVars false

open Finset Matrix Function

namespace Pylogit

open Spec

/-! ## Nested logit -/

section Nested

variable {R O A N K ι : Type} [Fintype R] [DecidableEq R] [Fintype O] [DecidableEq O] [Fintype N]
  [DecidableEq N] [Fintype K] [DecidableEq K] {f : R → O} {g : R → N} {c : O → R}
  {d : FitData R O A K ι} {Q : Matrix R N ℝ} {weights : Option (R → ℝ)}

/-- The nest coefficients that raw parameters stand for. -/
noncomputable def Spec.logisticCoefs (raw : N → ℝ) (m : N) : ℝ := 1 / (1 + Real.exp (-raw m))

theorem naturalize_eq_logistic (raw : N → ℝ) : naturalizeNestCoefs raw = logisticCoefs raw := by
  funext m
  have h := naturalize_pos raw m
  simp only [naturalizeNestCoefs, guardZero, neg_one_mul] at h ⊢
  have : (0 : ℝ) < 1 / (1 + Real.exp (-raw m)) := by positivity
  rw [if_neg this.ne', logisticCoefs]

/-- The weighted log-likelihood of a nested logit, minus the penalty the code documents: `ridge` times the
squared distance of the nest coefficients from 1 and of the index coefficients from 0. -/
noncomputable def Spec.nestedLogLik (f : R → O) (g : R → N) (c : O → R) (X : Matrix R K ℝ)
    (weights : Option (R → ℝ)) (ridge : Option ℝ) (θ : N ⊕ K → ℝ) : ℝ :=
  ∑ o, (weights.getD fun _ => 1) (c o) * Real.log (nestedProb f g (X *ᵥ fun k => θ (.inr k))
      (logisticCoefs fun m => θ (.inl m)) (c o)) -
    ridge.getD 0 * (∑ m, (logisticCoefs (fun m => θ (.inl m)) m - 1) ^ 2 + ∑ k, θ (.inr k) ^ 2)

theorem nestedEstimator_loglik [Nonempty R] (hM : Indicates d.rowsToObs f) (hQ : Indicates Q g)
    (hc : OneChoice f d.choice c) (ridge : Option ℝ) (con : Option (List (N ⊕ K))) (θ : N ⊕ K → ℝ) :
    (nestedEstimator d Q ridge weights con).logLik θ = nestedLogLik f g c d.design weights ridge θ := by
  have h : ∀ F : R → ℝ, ∑ r, d.choice r * F r = ∑ o, F (c o) := fun F => by
    simpa using sum_choice hc F
  simp only [nestedEstimator, calcNestedLogLikelihood, nestedLogLik, naturalize_eq_logistic]
  have e : ∑ r, d.choice r * (defaultWeights (estWeights weights) r * Real.log (nestedLongProbs
      (logisticCoefs fun m => θ (.inl m)) (fun k => θ (.inr k)) d.design d.rowsToObs Q r)) =
      ∑ o, (weights.getD fun _ => 1) (c o) * Real.log (nestedProb f g (d.design *ᵥ fun k => θ (.inr k))
      (logisticCoefs fun m => θ (.inl m)) (c o)) := by
    rw [h fun r => defaultWeights (estWeights weights) r * Real.log (nestedLongProbs
      (logisticCoefs fun m => θ (.inl m)) (fun k => θ (.inr k)) d.design d.rowsToObs Q r)]
    refine Finset.sum_congr rfl fun o _ => ?_
    rw [← naturalize_eq_logistic, nestedLongProbs_eq hM hQ (naturalize_pos _), ← estWeights_getD]
    rfl
  cases ridge <;> simp [e]

/-- What the gradient of the estimator is off by, at every parameter. -/
theorem nestedEstimator_gradient [Nonempty R] (hM : Indicates d.rowsToObs f) (hQ : Indicates Q g)
    (hc : OneChoice f d.choice c) (hw : ObsWeights f weights) (hw0 : NonnegWeights weights)
    (con : Option (List (N ⊕ K))) (θ : N ⊕ K → ℝ) :
    HasPartials (nestedEstimator d Q none weights con).logLik
      (fun i => (nestedEstimator d Q none weights con).gradient θ i -
        emptyNestOffset f g c (defaultWeights weights) (fun m => θ (.inl m)) i) θ := by
  have hw1 : NonnegWeights (estWeights weights) := by
    intro w e r
    cases weights with
    | none => cases e; simp [defaultWeights]
    | some w0 => cases e; exact hw0 w0 rfl r
  have e : defaultWeights (estWeights weights) = defaultWeights weights := by cases weights <;> rfl
  have h := nested_gradient_exact hM hQ hc (obsWeights_est hw) hw1 d.design θ
  rw [e] at h
  exact h

theorem negGrad_free {P : Type} [DecidableEq P] (e : Estimator P) (x : P → ℝ) {i : P}
    (hi : i ∉ e.constrainedPos.getD []) : (e.negLLAndGrad x).2 i = -e.gradient x i := by
  unfold Estimator.negLLAndGrad
  cases hc : e.constrainedPos with
  | none => simp
  | some l =>
    rw [hc] at hi
    simp only [Option.getD_some] at hi
    simp [hi]

theorem negGrad_fixed {P : Type} [DecidableEq P] (e : Estimator P) (x : P → ℝ) {i : P}
    (hi : i ∈ e.constrainedPos.getD []) : (e.negLLAndGrad x).2 i = 0 := by
  unfold Estimator.negLLAndGrad
  cases hc : e.constrainedPos with
  | none => simp [hc] at hi
  | some l =>
    rw [hc] at hi
    simp only [Option.getD_some] at hi
    simp [hi]

/-- **C82**, nested logit without ridge penalty (partial: every observation has an alternative in every nest
whose coefficient is free).  Missing: the other cases, where the property is false
(`nested_objective_iff`).  Parameters: raw nest coefficients, index coefficients. -/
theorem nested_objective_partial [Nonempty R] (hM : Indicates d.rowsToObs f) (hQ : Indicates Q g)
    (hc : OneChoice f d.choice c) (hw : ObsWeights f weights) (hw0 : NonnegWeights weights)
    (con : Option (List (N ⊕ K))) (θ : N ⊕ K → ℝ)
    (hfree : ∀ m, .inl m ∉ con.getD [] → ∀ o, ∃ r, f r = o ∧ g r = m) :
    ObjectiveFor (nestedEstimator d Q none weights con) (nestedLogLik f g c d.design weights none) θ where
  value := by rw [constrained_gradient_fst, nestedEstimator_loglik hM hQ hc]
  fixed _ hi := negGrad_fixed _ _ hi
  free i hi := by
    rw [negGrad_free _ _ hi]
    have h := (nestedEstimator_gradient hM hQ hc hw hw0 con θ i).neg
    simp only [nestedEstimator_loglik hM hQ hc] at h
    refine h.congr_deriv ?_
    have : emptyNestOffset (K := K) f g c (defaultWeights weights) (fun m => θ (.inl m)) i = 0 := by
      rcases i with m | k
      · simp only [emptyNestOffset]
        rw [Finset.filter_eq_empty_iff.2 fun o _ => not_not.2 (mem_availNests.2 (hfree m hi o))]
        simp
      · rfl
    rw [this, sub_zero]

/-- **C82**, nested logit, the exact range of validity: with positive weights and no penalty the optimiser is
given the right gradient iff every observation has an alternative in every nest whose coefficient is free. -/
theorem nested_objective_iff [Nonempty R] (hM : Indicates d.rowsToObs f) (hQ : Indicates Q g)
    (hc : OneChoice f d.choice c) (hw : ObsWeights f weights)
    (hw1 : ∀ w, weights = some w → ∀ r, 0 < w r) (con : Option (List (N ⊕ K))) (θ : N ⊕ K → ℝ) :
    ObjectiveFor (nestedEstimator d Q none weights con) (nestedLogLik f g c d.design weights none) θ ↔
      ∀ m, .inl m ∉ con.getD [] → ∀ o, ∃ r, f r = o ∧ g r = m := by
  have hw0 : NonnegWeights weights := fun w e r => (hw1 w e r).le
  refine ⟨fun h m hm o => ?_, nested_objective_partial hM hQ hc hw hw0 con θ⟩
  by_contra hno
  have hno' : m ∉ availNests f g o := fun hh => hno (mem_availNests.1 hh)
  have h1 := (nestedEstimator_gradient hM hQ hc hw hw0 con θ (.inl m)).neg
  simp only [nestedEstimator_loglik hM hQ hc] at h1
  have e := (h.free (.inl m) hm).unique h1
  rw [negGrad_free (nestedEstimator d Q none weights con) _ hm] at e
  have hpos : 0 < emptyNestOffset (K := K) f g c (defaultWeights weights) (fun m => θ (.inl m))
      (.inl m) := by
    rw [emptyNestOffset]
    have h1 := naturalize_pos (fun m => θ (Sum.inl m)) m
    have h2 := naturalize_lt_one (fun m => θ (Sum.inl m)) m
    refine mul_pos (mul_pos h1 (by linarith)) (Finset.sum_pos (fun o' _ => ?_) ⟨o, by simp [hno']⟩)
    cases hwe : weights with
    | none => simp [defaultWeights]
    | some w => exact hw1 w hwe _
  linarith

/-- **C82**, nested logit with a ridge penalty (partial: all nest coefficients are held fixed).  Missing: free
nest coefficients, for which the property is false (`nested_ridge_gradient_wrong`). -/
theorem nested_objective_ridge_partial [Nonempty R] (hM : Indicates d.rowsToObs f) (hQ : Indicates Q g)
    (hc : OneChoice f d.choice c) (hw : ObsWeights f weights) (hw0 : NonnegWeights weights) (ρ : ℝ)
    (con : Option (List (N ⊕ K))) (θ : N ⊕ K → ℝ) (hfix : ∀ m, .inl m ∈ con.getD []) :
    ObjectiveFor (nestedEstimator d Q (some ρ) weights con)
      (nestedLogLik f g c d.design weights (some ρ)) θ where
  value := by rw [constrained_gradient_fst, nestedEstimator_loglik hM hQ hc]
  fixed _ hi := negGrad_fixed _ _ hi
  free i hi := by
    rw [negGrad_free _ _ hi]
    rcases i with m | k
    · exact absurd (hfix m) hi
    have hw1 : NonnegWeights (estWeights weights) := by
      intro w e r
      cases weights with
      | none => cases e; simp [defaultWeights]
      | some w0 => cases e; exact hw0 w0 rfl r
    have h := (nested_ridge_gradient_partial hM hQ hc (obsWeights_est hw) hw1 d.design ρ θ k).neg
    have e : ∀ y, nestedObjective d.design d.rowsToObs Q d.choice (some ρ) (estWeights weights) y =
        nestedLogLik f g c d.design weights (some ρ) y := fun y =>
      nestedEstimator_loglik hM hQ hc (some ρ) con y
    simp only [e] at h
    exact h

end Nested

/-! ## Mixed logit -/

section Mixed

variable {R O M D P : Type} [Fintype R] [DecidableEq R] [Fintype O] [DecidableEq O] [Fintype M]
  [DecidableEq M] [Fintype D] [Fintype P] [DecidableEq P]

/-- The weighted, penalised simulated log-likelihood of a mixed logit: individual `m`, whose first row is
`first m`, made the choices of its rows; `X r d` is the row of the expanded design under draw `d`. -/
noncomputable def Spec.simulatedLogLik (f : R → O) (g : R → M) (first : M → R) (choice : R → ℝ)
    (X : R → D → P → ℝ) (weights : Option (R → ℝ)) (ridge : Option ℝ) (θ : P → ℝ) : ℝ :=
  ∑ m, (weights.getD fun _ => 1) (first m) * Real.log (average fun d =>
      sequenceProb g choice (clippedLogit f fun r => ∑ q, X r d q * θ q) m) -
    ridge.getD 0 * ∑ q, θ q ^ 2

/-- **C82**, mixed logit: panel data, weights constant within individuals, utilities inside the clipping
range. -/
theorem mixed_objective [Nonempty R] [Nonempty D] {B : Matrix R O ℝ} {f : R → O} (hB : Indicates B f)
    {C : Matrix R M ℝ} {g : R → M} (hC : Indicates C g) (hfg : PanelData f g) {choice : R → ℝ} {c : O → R}
    (hc : OneChoice f choice c) {weights : Option (R → ℝ)} (hw : ObsWeights g weights)
    (hw0 : NonnegWeights weights) {first : M → R} (hfirst : ∀ m, g (first m) = m) (θ : P → ℝ)
    (X : R → D → P → ℝ) (ridge : Option ℝ) (con : Option (List P))
    (hb : ∀ r d, |∑ q, X r d q * θ q| < 700) :
    ObjectiveFor (mixedEstimator X B C choice ridge weights con)
      (simulatedLogLik f g first choice X weights ridge) θ := by
  have hw1 : NonnegWeights (estWeights weights) := by
    intro w e r
    cases weights with
    | none => cases e; simp [defaultWeights]
    | some w0 => cases e; exact hw0 w0 rfl r
  refine objective_of (fun y => ?_)
    (mixed_gradient hB hC hfg hc (obsWeights_est hw) hw1 θ X ridge hb)
  have hy : ZeroOne choice := fun r => by
    by_cases h : r = c (f r)
    · right; rw [h]; exact hc.one _
    · left; exact hc.zero r h
  simp only [mixedEstimator]
  rw [mixed_loglik_formula hB hC hy (obsWeights_est hw) hw1 hfirst, estWeights_getD]
  simp only [kernelProbs, longProbs_eq_clippedLogit hB, simulatedLogLik]

end Mixed

/-! ## The Hessians handed to the optimiser -/

section Curvature

variable {R O A K S I ι : Type} [Fintype R] [DecidableEq R] [Fintype O] [DecidableEq O]
  [Fintype K] [DecidableEq K] [Fintype S] [DecidableEq S] [Fintype I] [DecidableEq I]
  {f : R → O} {c : O → R} {d : FitData R O A K ι} {ridge : Option ℝ} {weights : Option (R → ℝ)}

/-- The Hessian of the objective handed to the optimiser: the weighted sum over observations of the
covariances, under the logit probabilities, of the partial derivatives of the utilities `h`, plus twice the
ridge penalty on the diagonal. -/
def Spec.CurvatureFor {P : Type} [Fintype P] [DecidableEq P] (e : Estimator P) (h : (P → ℝ) → R → ℝ)
    (x : P → ℝ) (f : R → O) (c : O → R) (weights : Option (R → ℝ)) (ridge : Option ℝ) : Prop :=
  ∃ J : Matrix R P ℝ, HasJacobian h J x ∧ ∀ i j,
    e.negHessian x i j = ∑ o, (weights.getD fun _ => 1) (c o) *
      obsCov f (clippedLogit f (h x)) (fun r => J r i) (fun r => J r j) o +
      2 * ridge.getD 0 * (if i = j then 1 else 0)

theorem curvature_of {P : Type} [Fintype P] [DecidableEq P] {e : Estimator P} {h : (P → ℝ) → R → ℝ}
    {x : P → ℝ} {p : R → ℝ} (hp : p = clippedLogit f (h x))
    (hH : CovarianceHessian (e.hessian x) h x f p ridge
      (fun o => ((estWeights weights).getD fun _ => 1) (c o))) :
    CurvatureFor e h x f c weights ridge := by
  obtain ⟨J, hJ, hij⟩ := hH
  refine ⟨J, hJ, fun i j => ?_⟩
  rw [Estimator.negHessian, Matrix.smul_apply, hij, estWeights_getD, hp]
  simp only [smul_eq_mul]
  ring

theorem estimatorNone_curvature (hM : Indicates d.rowsToObs f) (hc : ∀ o, f (c o) = o)
    (hw : ObsWeights f weights) {T : Transform R A S I ι} {derivs : (R → ℝ) → Derivs R S I}
    {con : Option (List K)} (x : K → ℝ) (hT : Rowwise T d.altIDs d.rowsToAlts none none)
    (hd : DerivsCorrect T (derivs (d.design *ᵥ x)) (d.design *ᵥ x) d.altIDs d.rowsToAlts none none) :
    CurvatureFor (estimatorNone T derivs d ridge weights con)
      (fun θ => T (d.design *ᵥ θ) d.altIDs d.rowsToAlts none none) x f c weights ridge :=
  curvature_of (by simp only [modelProbs]; exact funext fun r => longProbs_eq_clippedLogit hM _ r)
    (hessian_covariance_none hM hc (obsWeights_est hw) _ ridge hT hd)

theorem estimatorIcpt_curvature (hM : Indicates d.rowsToObs f) (hc : ∀ o, f (c o) = o)
    (hw : ObsWeights f weights) {T : Transform R A S I ι} {derivs : (R → ℝ) → Derivs R S I}
    {con : Option (List (I ⊕ K))} (a : I → ℝ) (β : K → ℝ)
    (hT : Rowwise T d.altIDs d.rowsToAlts none (some a))
    (hd : DerivsCorrect T (derivs (d.design *ᵥ β)) (d.design *ᵥ β) d.altIDs d.rowsToAlts none (some a)) :
    CurvatureFor (estimatorIcpt T derivs d ridge weights con)
      (fun θ => T (d.design *ᵥ fun k => θ (.inr k)) d.altIDs d.rowsToAlts none (some fun i => θ (.inl i)))
      (Sum.elim a β) f c weights ridge :=
  curvature_of (by simp only [modelProbs]; exact funext fun r => longProbs_eq_clippedLogit hM _ r)
    (hessian_covariance_icpt hM hc (obsWeights_est hw) _ ridge hT hd)

theorem estimatorShape_curvature (hM : Indicates d.rowsToObs f) (hc : ∀ o, f (c o) = o)
    (hw : ObsWeights f weights) {T : Transform R A S I ι} {derivs : (S → ℝ) → (R → ℝ) → Derivs R S I}
    {con : Option (List (S ⊕ K))} (s : S → ℝ) (β : K → ℝ)
    (hT : Rowwise T d.altIDs d.rowsToAlts (some s) none)
    (hd : DerivsCorrect T (derivs s (d.design *ᵥ β)) (d.design *ᵥ β) d.altIDs d.rowsToAlts (some s) none) :
    CurvatureFor (estimatorShape T derivs d ridge weights con)
      (fun θ => T (d.design *ᵥ fun k => θ (.inr k)) d.altIDs d.rowsToAlts (some fun i => θ (.inl i)) none)
      (Sum.elim s β) f c weights ridge :=
  curvature_of (by simp only [modelProbs]; exact funext fun r => longProbs_eq_clippedLogit hM _ r)
    (hessian_covariance_shape hM hc (obsWeights_est hw) _ ridge hT hd)

theorem estimatorBoth_curvature (hM : Indicates d.rowsToObs f) (hc : ∀ o, f (c o) = o)
    (hw : ObsWeights f weights) {T : Transform R A S I ι} {derivs : (S → ℝ) → (R → ℝ) → Derivs R S I}
    {con : Option (List (S ⊕ (I ⊕ K)))} (s : S → ℝ) (a : I → ℝ) (β : K → ℝ)
    (hT : Rowwise T d.altIDs d.rowsToAlts (some s) (some a))
    (hd : DerivsCorrect T (derivs s (d.design *ᵥ β)) (d.design *ᵥ β) d.altIDs d.rowsToAlts (some s)
      (some a)) :
    CurvatureFor (estimatorBoth T derivs d ridge weights con)
      (fun θ => T (d.design *ᵥ fun k => θ (.inr (.inr k))) d.altIDs d.rowsToAlts
        (some fun i => θ (.inl i)) (some fun i => θ (.inr (.inl i))))
      (Sum.elim s (Sum.elim a β)) f c weights ridge :=
  curvature_of (by simp only [modelProbs]; exact funext fun r => longProbs_eq_clippedLogit hM _ r)
    (hessian_covariance_both hM hc (obsWeights_est hw) _ ridge hT hd)

end Curvature

section CurvatureModels

variable {R O A K ι : Type} [Fintype R] [DecidableEq R] [Fintype O] [DecidableEq O] [Fintype K]
  [DecidableEq K] {n : ℕ} {f : R → O} {c : O → R} {ridge : Option ℝ} {weights : Option (R → ℝ)}
  {d : FitData R O (Fin (n + 1)) K ι} {alt : R → Fin (n + 1)}

theorem mnl_objective_value {d : FitData R O A K ι} (hM : Indicates d.rowsToObs f)
    (hc : OneChoice f d.choice c) (con : Option (List K)) (x : K → ℝ) :
    ((mnlEstimator d ridge weights con).negLLAndGrad x).1 =
      -penalisedLogLik c weights ridge (fun θ => clippedLogit f (d.design *ᵥ θ)) x := by
  rw [constrained_gradient_fst]
  congr 1
  simp only [mnlEstimator, estimatorNone]
  rw [loglik_formula hc, penalisedLogLik, estWeights_getD]
  simp only [modelProbs, longProbs_eq_clippedLogit hM, mnlTransform]
  simp [penalty]

/-- **C82** (Hessian), multinomial logit: here it is the second derivative of the objective. -/
theorem mnl_objective_hessian {d : FitData R O A K ι} (hM : Indicates d.rowsToObs f)
    (hc : OneChoice f d.choice c) (hw : ObsWeights f weights) (con : Option (List K)) (x : K → ℝ)
    (hb : ∀ r, |(d.design *ᵥ x) r| < 700) (i j : K) :
    HasDerivAt (fun t => deriv (fun s => -penalisedLogLik c weights ridge
        (fun θ => clippedLogit f (d.design *ᵥ θ)) (update (update x j t) i s)) (update x j t i))
      ((mnlEstimator d ridge weights con).negHessian x i j) (x j) := by
  have h := (mnl_hessian_second_derivative hM hc (obsWeights_est hw) d.design d.altIDs d.rowsToAlts
    x ridge hb i j).neg
  have e : ∀ y, -penalisedLogLik c weights ridge (fun θ => clippedLogit f (d.design *ᵥ θ)) y =
      -(mnlEstimator d ridge weights con).logLik y := fun y => by
    rw [← (mnl_objective_value hM hc con y), constrained_gradient_fst]
  have e2 : (mnlEstimator d ridge weights con).negHessian x i j =
      -(mnlEstimator d ridge weights con).hessian x i j := by
    simp [Estimator.negHessian]
  rw [e2]
  simp only [e, deriv.fun_neg]
  exact h

/-- **C82** (Hessian), Scobit with outside intercepts. -/
theorem scobit_curvature (hM : Indicates d.rowsToObs f) (hA : Indicates d.rowsToAlts alt)
    (hc : ∀ o, f (c o) = o) (hw : ObsWeights f weights) (ref : Fin (n + 1))
    (con : Option (List (Fin (n + 1) ⊕ (Fin n ⊕ K)))) (s : Fin (n + 1) → ℝ) (a : Fin n → ℝ) (β : K → ℝ) :
    CurvatureFor (scobitEstimator ref d ridge weights con)
      (fun θ => scobitUtility (withReference ref fun i => θ (.inr (.inl i))) (fun j => θ (.inl j)) alt
        (d.design *ᵥ fun k => θ (.inr (.inr k))))
      (Sum.elim s (Sum.elim a β)) f c weights ridge := by
  simp only [← scobitTransform_eq hA ref _ d.altIDs]
  exact estimatorBoth_curvature hM hc hw s a β (fun r v v' h => by simp [scobitTransform, h])
    (scobit_derivs_correct ref hA _ _ _ _)

/-- **C82** (Hessian), Scobit without outside intercepts. -/
theorem scobit_curvature_plain (hM : Indicates d.rowsToObs f) (hA : Indicates d.rowsToAlts alt)
    (hc : ∀ o, f (c o) = o) (hw : ObsWeights f weights) (ref : Fin (n + 1))
    (con : Option (List (Fin (n + 1) ⊕ K))) (s : Fin (n + 1) → ℝ) (β : K → ℝ) :
    CurvatureFor (scobitEstimatorPlain ref d ridge weights con)
      (fun θ => scobitUtility (fun _ => 0) (fun j => θ (.inl j)) alt (d.design *ᵥ fun k => θ (.inr k)))
      (Sum.elim s β) f c weights ridge := by
  simp only [← scobitTransform_eq_plain hA ref _ d.altIDs]
  exact estimatorShape_curvature hM hc hw s β (fun r v v' h => by simp [scobitTransform, h])
    (scobit_derivs_correct ref hA _ _ _ _)

/-- **C82** (Hessian), uneven logit with outside intercepts. -/
theorem uneven_curvature (hM : Indicates d.rowsToObs f) (hA : Indicates d.rowsToAlts alt)
    (hc : ∀ o, f (c o) = o) (hw : ObsWeights f weights) (ref : Fin (n + 1))
    (con : Option (List (Fin (n + 1) ⊕ (Fin n ⊕ K)))) (s : Fin (n + 1) → ℝ) (a : Fin n → ℝ) (β : K → ℝ) :
    CurvatureFor (unevenEstimator ref d ridge weights con)
      (fun θ => unevenUtility (withReference ref fun i => θ (.inr (.inl i))) (fun j => θ (.inl j)) alt
        (d.design *ᵥ fun k => θ (.inr (.inr k))))
      (Sum.elim s (Sum.elim a β)) f c weights ridge := by
  simp only [← unevenTransform_eq hA ref _ d.altIDs]
  exact estimatorBoth_curvature hM hc hw s a β (fun r v v' h => by simp [unevenTransform, h])
    (uneven_derivs_correct ref hA _ _ _ _)

/-- **C82** (Hessian), uneven logit without outside intercepts. -/
theorem uneven_curvature_plain (hM : Indicates d.rowsToObs f) (hA : Indicates d.rowsToAlts alt)
    (hc : ∀ o, f (c o) = o) (hw : ObsWeights f weights) (ref : Fin (n + 1))
    (con : Option (List (Fin (n + 1) ⊕ K))) (s : Fin (n + 1) → ℝ) (β : K → ℝ) :
    CurvatureFor (unevenEstimatorPlain ref d ridge weights con)
      (fun θ => unevenUtility (fun _ => 0) (fun j => θ (.inl j)) alt (d.design *ᵥ fun k => θ (.inr k)))
      (Sum.elim s β) f c weights ridge := by
  simp only [← unevenTransform_eq_plain hA ref _ d.altIDs]
  exact estimatorShape_curvature hM hc hw s β (fun r v v' h => by simp [unevenTransform, h])
    (uneven_derivs_correct ref hA _ _ _ _)

/-- **C82** (Hessian), clog-log with outside intercepts (partial: indices below 3.7). -/
theorem clog_curvature_partial (hM : Indicates d.rowsToObs f) (hA : Indicates d.rowsToAlts alt)
    (hc : ∀ o, f (c o) = o) (hw : ObsWeights f weights) (ref : Fin (n + 1))
    (con : Option (List (Fin n ⊕ K))) (a : Fin n → ℝ) (β : K → ℝ) (hv : ∀ r, (d.design *ᵥ β) r < 3.7) :
    CurvatureFor (clogEstimator ref d ridge weights con)
      (fun θ => clogUtility (withReference ref fun i => θ (.inl i)) alt (d.design *ᵥ fun k => θ (.inr k)))
      (Sum.elim a β) f c weights ridge := by
  simp only [← clogTransform_eq hA ref _ d.altIDs]
  exact estimatorIcpt_curvature hM hc hw a β (fun r v v' h => by simp [clogTransform, h])
    (clog_derivs_correct_partial ref hA _ hv _ _)

/-- **C82** (Hessian), asymmetric logit with outside intercepts (partial: as for the gradient). -/
theorem asym_curvature_partial (hM : Indicates d.rowsToObs f) (hA : Indicates d.rowsToAlts alt)
    (hc : ∀ o, f (c o) = o) (hw : ObsWeights f weights) (hn : 0 < n) (sref ref : Fin (n + 1))
    (con : Option (List (Fin n ⊕ (Fin n ⊕ K)))) (s : Fin n → ℝ) (a : Fin n → ℝ) (β : K → ℝ)
    (hv : ∀ r, (d.design *ᵥ β) r ≠ 0 ∨ naturalShape (withReference sref s) (alt r) = 1 / (n + 1)) :
    CurvatureFor (asymEstimator sref ref d ridge weights con)
      (fun θ => asymUtility (withReference ref fun i => θ (.inr (.inl i)))
        (withReference sref fun j => θ (.inl j)) alt (d.design *ᵥ fun k => θ (.inr (.inr k))))
      (Sum.elim s (Sum.elim a β)) f c weights ridge := by
  simp only [← asymTransform_eq hA hn sref ref _ d.altIDs]
  exact estimatorBoth_curvature hM hc hw s a β (fun r v v' h => by simp [asymTransform, h])
    (asym_derivs_correct_partial hn sref ref hA _ _ _ _ fun r => by
      rw [naturalShape_eq]; exact_mod_cast hv r)

end CurvatureModels

/-! ## Non-vacuity: two observations, three rows, two alternatives -/

/-- Three rows of two observations and two alternatives, one design column. -/
noncomputable def exFit : FitData (Fin 3) (Fin 2) (Fin 2) (Fin 1) ℤ where
  design := !![1; 2; 3]
  altIDs := ![0, 1, 0]
  rowsToObs := exM
  rowsToAlts := fun r a => if (![0, 1, 0] : Fin 3 → Fin 2) r = a then 1 else 0
  choice := exChoice

theorem exFit_design_zero : exFit.design *ᵥ (fun _ : Fin 1 => (0 : ℝ)) = 0 := by
  funext r; simp [mulVec, dotProduct]

example : ObjectiveFor (mnlEstimator exFit (some 0.5) (some fun _ => 2) (some [0]))
    (penalisedLogLik ![1, 2] (some fun _ => 2) (some 0.5) fun θ => clippedLogit exObs (exFit.design *ᵥ θ))
    fun _ => 0 :=
  mnl_objective exM_indicates exOneChoice (by intro w h; cases h; simp) _ _
    (by intro r; rw [exFit_design_zero]; simp)

/-- All shapes and coefficients zero: the utilities of the uneven logit are zero. -/
theorem exFit_uneven (r : Fin 3) : |unevenUtility (withReference (n := 1) 1 fun _ => 0) (fun _ => 0)
    ![0, 1, 0] (exFit.design *ᵥ fun _ => 0) r| < 700 := by
  have h : withReference (n := 1) 1 (fun _ => 0) = fun _ => 0 := by
    funext j; fin_cases j <;> rfl
  rw [h, exFit_design_zero]
  simp [unevenUtility]

example : ObjectiveFor (unevenEstimator 1 exFit (some 0.5) (some fun _ => 2) (some [.inl 0]))
    (penalisedLogLik ![1, 2] (some fun _ => 2) (some 0.5) fun θ => clippedLogit exObs (unevenUtility
      (withReference 1 fun i => θ (.inr (.inl i))) (fun j => θ (.inl j)) ![0, 1, 0]
      (exFit.design *ᵥ fun k => θ (.inr (.inr k)))))
    (Sum.elim (fun _ => 0) (Sum.elim (fun _ => 0) fun _ => 0)) :=
  uneven_objective exM_indicates (fun _ _ => rfl) exOneChoice (by intro w h; cases h; simp) 1 _ _ _ _
    exFit_uneven

/-- All shapes, intercepts and coefficients zero: scobit utilities are zero. -/
theorem exFit_scobit (r : Fin 3) : |scobitUtility (withReference (n := 1) 1 fun _ => 0) (fun _ => 0)
    ![0, 1, 0] (exFit.design *ᵥ fun _ => 0) r| < 700 := by
  have h : withReference (n := 1) 1 (fun _ => 0) = fun _ => 0 := by
    funext j; fin_cases j <;> rfl
  rw [h, exFit_design_zero]
  norm_num [scobitUtility]

example : ObjectiveFor (scobitEstimator 1 exFit (some 0.5) (some fun _ => 2) none)
    (penalisedLogLik ![1, 2] (some fun _ => 2) (some 0.5) fun θ => clippedLogit exObs (scobitUtility
      (withReference 1 fun i => θ (.inr (.inl i))) (fun j => θ (.inl j)) ![0, 1, 0]
      (exFit.design *ᵥ fun k => θ (.inr (.inr k)))))
    (Sum.elim (fun _ => 0) (Sum.elim (fun _ => 0) fun _ => 0)) :=
  scobit_objective exM_indicates (fun _ _ => rfl) exOneChoice (by intro w h; cases h; simp) 1 _ _ _ _
    exFit_scobit

/-- Clog-log at coefficient zero: utilities `log (e - 1)`. -/
theorem exFit_clog (r : Fin 3) : |clogUtility (fun _ : Fin 2 => 0) ![0, 1, 0]
    (exFit.design *ᵥ fun _ => 0) r| < 700 := by
  rw [exFit_design_zero]
  have h1 : (1 : ℝ) < Real.exp 1 - 1 := by linarith [Real.exp_one_gt_d9]
  have h2 : Real.exp 1 - 1 < 2 := by linarith [Real.exp_one_lt_d9]
  have h3 := Real.log_pos h1
  have h4 : Real.log (Real.exp 1 - 1) ≤ Real.exp 1 - 1 - 1 := Real.log_le_sub_one_of_pos (by linarith)
  norm_num [clogUtility]
  rw [abs_lt]
  constructor <;> linarith

example : ObjectiveFor (clogEstimatorPlain (n := 1) 1 exFit (some 0.5) (some fun _ => 2) none)
    (penalisedLogLik ![1, 2] (some fun _ => 2) (some 0.5) fun θ => clippedLogit exObs (clogUtility (n := 1)
      (fun _ => 0) ![0, 1, 0] (exFit.design *ᵥ θ))) (fun _ => 0) :=
  clog_objective_plain_partial exM_indicates (fun _ _ => rfl) exOneChoice (by intro w h; cases h; simp) 1 _ _
    (by intro r; rw [exFit_design_zero]; norm_num) exFit_clog

/-- The asymmetric model at coefficient one: no index is zero. -/
theorem exFit_asym (r : Fin 3) : |asymUtility (withReference (n := 1) 1 fun _ => 0)
    (withReference (n := 1) 0 fun _ => 0) ![0, 1, 0] (exFit.design *ᵥ fun _ => 1) r| < 700 := by
  have h : ∀ i : Fin 2, withReference (n := 1) i (fun _ => 0) = fun _ => 0 := by
    intro i; funext j; fin_cases i <;> fin_cases j <;> rfl
  have hd : ∀ r, (exFit.design *ᵥ fun _ : Fin 1 => (1 : ℝ)) r = r + 1 := by
    intro r; fin_cases r <;> norm_num [exFit, mulVec, dotProduct]
  rw [h, h]
  have hr : (r : ℝ) ≤ 2 := by fin_cases r <;> norm_num
  have hr0 : (0 : ℝ) ≤ r := by positivity
  have hl : |Real.log (1 / 2)| ≤ 1 := by
    rw [one_div, Real.log_inv, abs_neg, abs_of_pos (Real.log_pos (by norm_num))]
    linarith [Real.log_two_lt_d9]
  have e : asymUtility (n := 1) (fun _ => 0) (fun _ => 0) ![0, 1, 0] (exFit.design *ᵥ fun _ : Fin 1 => (1 : ℝ)) r =
      -(r * Real.log (1 / 2)) := by
    simp only [asymUtility, naturalShape, hd]
    rw [if_pos (by positivity)]
    norm_num
    ring
  rw [e, abs_neg, abs_mul, abs_of_nonneg hr0]
  nlinarith [abs_nonneg (Real.log (1 / 2))]

example : ObjectiveFor (asymEstimator 0 1 exFit (some 0.5) (some fun _ => 2) none)
    (penalisedLogLik ![1, 2] (some fun _ => 2) (some 0.5) fun θ => clippedLogit exObs (asymUtility
      (withReference 1 fun i => θ (.inr (.inl i))) (withReference 0 fun j => θ (.inl j)) ![0, 1, 0]
      (exFit.design *ᵥ fun k => θ (.inr (.inr k)))))
    (Sum.elim (fun _ => 0) (Sum.elim (fun _ => 0) fun _ => 1)) :=
  asym_objective_partial exM_indicates (fun _ _ => rfl) exOneChoice (by intro w h; cases h; simp)
    one_pos 0 1 _ _ _ _
    (by intro r; left; fin_cases r <;> norm_num [exFit, mulVec, dotProduct]) exFit_asym

example : CurvatureFor (unevenEstimator 1 exFit (some 0.5) (some fun _ => 2) none)
    (fun θ => unevenUtility (withReference 1 fun i => θ (.inr (.inl i))) (fun j => θ (.inl j)) ![0, 1, 0]
      (exFit.design *ᵥ fun k => θ (.inr (.inr k))))
    (Sum.elim ![1, -1] (Sum.elim (fun _ => 2) fun _ => 3)) exObs ![1, 2] (some fun _ => 2) (some 0.5) :=
  uneven_curvature exM_indicates (fun _ _ => rfl) exOneChoice.mem (by intro w h; cases h; simp) 1 _ _ _ _

/-- The nested example of `Props/Nested.lean`: every observation has an alternative in every nest. -/
noncomputable def exNestFit : FitData (Fin 5) (Fin 2) (Fin 5) (Fin 1) ℤ where
  design := !![1; 2; 3; 4; 5]
  altIDs := fun _ => 0
  rowsToObs := fun r o => if exNestObs r = o then 1 else 0
  rowsToAlts := 0
  choice := exNestChoice

example (θ : Fin 2 ⊕ Fin 1 → ℝ) :
    ObjectiveFor (nestedEstimator exNestFit (fun r m => if exNest r = m then 1 else 0) none none none)
      (nestedLogLik exNestObs exNest ![1, 4] exNestFit.design none none) θ :=
  nested_objective_partial (fun _ _ => rfl) (fun _ _ => rfl) exNest_oneChoice (fun w e => by cases e)
    (fun w e => by cases e) none θ fun m _ o => exNest_all o m

/-- With nest 1 empty for observation 1 and its coefficient free, the gradient is wrong; with the
coefficient held fixed, as pylogit recommends for one-alternative nests, it is right. -/
example (θ : Fin 2 ⊕ Fin 1 → ℝ) :
    (¬ ObjectiveFor (nestedEstimator exFit (fun r m => if (![0, 1, 0] : Fin 3 → Fin 2) r = m then 1 else 0)
        none none none) (nestedLogLik exObs ![0, 1, 0] ![1, 2] exFit.design none none) θ) ∧
      ObjectiveFor (nestedEstimator exFit (fun r m => if (![0, 1, 0] : Fin 3 → Fin 2) r = m then 1 else 0)
        none none (some [.inl 1])) (nestedLogLik exObs ![0, 1, 0] ![1, 2] exFit.design none none) θ := by
  constructor
  · rw [nested_objective_iff (g := ![0, 1, 0]) exM_indicates (fun _ _ => rfl) exOneChoice
      (fun w e => by cases e) (fun w e => by cases e)]
    simp only [Option.getD_none, List.not_mem_nil, not_false_eq_true, forall_true_left]
    decide
  · refine nested_objective_partial (g := ![0, 1, 0]) exM_indicates (fun _ _ => rfl) exOneChoice
      (fun w e => by cases e) (fun w e => by cases e) _ θ fun m hm o => ?_
    have : m = 0 := by fin_cases m <;> simp_all
    subst this
    fin_cases o
    · exact ⟨0, rfl, rfl⟩
    · exact ⟨2, rfl, rfl⟩

/-- Two individuals, two draws, one parameter. -/
example : ObjectiveFor (mixedEstimator (D := Fin 2) (P := Fin 1) (fun (r : Fin 3) (d : Fin 2) _ => ((r : ℕ) : ℝ) - (d : ℕ)) exM exM exChoice
      (some 0.5) (some fun _ => 2) none)
    (simulatedLogLik exObs exObs ![0, 2] exChoice (fun (r : Fin 3) (d : Fin 2) _ => ((r : ℕ) : ℝ) - (d : ℕ)) (some fun _ => 2) (some 0.5))
    fun _ => 0 :=
  mixed_objective exM_indicates exM_indicates (fun _ _ h => h) exOneChoice (by intro w h; cases h; simp)
    (by intro w h; cases h; simp) (by intro m; fin_cases m <;> rfl) _ _ _ _ (by simp)

end Pylogit
