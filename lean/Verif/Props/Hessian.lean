import Verif.Lemmas.Hessian
import Verif.Props.Gradient
import Mathlib.Analysis.Calculus.Deriv.Inv

/-!
# C24-C29: Hessian, concavity, Fisher information, robust covariance
-/

set_option linter.unusedSectionVars false

open Finset Matrix Function Filter Topology

namespace Pylogit

open Spec

variable {R O A K S I ι : Type} [Fintype R] [DecidableEq R] [Fintype O] [DecidableEq O]
  [Fintype K] [DecidableEq K] [Fintype S] [DecidableEq S] [Fintype I] [DecidableEq I]

theorem ridgeMat_apply {P : Type} [DecidableEq P] (ridge : Option ℝ) (H : Matrix P P ℝ) (i j : P) :
    ridgeMat ridge H i j = H i j - 2 * ridge.getD 0 * (if i = j then 1 else 0) := by
  cases ridge <;> simp [ridgeMat, Matrix.one_apply]

/-- One entry of the derivative of the gradient formula: the entry of the Hessian formula of the code
plus the term carrying the second derivatives `m` of the transformed utilities. -/
theorem gradient_partial_entry {P : Type} [Fintype P] [DecidableEq P] {M : Matrix R O ℝ} {f : R → O}
    (hM : Indicates M f) (choice : R → ℝ) (weights : Option (R → ℝ)) (ridge : Option ℝ)
    {h : (P → ℝ) → R → ℝ} {J : (P → ℝ) → Matrix R P ℝ} {θ : P → ℝ} (hJ : HasJacobian h (J θ) θ)
    {i j : P} {m : R → ℝ} (h2 : ∀ r, HasDerivAt (fun t => J (update θ j t) r i) (m r) (θ j))
    (hb : ∀ r, |h θ r| < 700) :
    HasDerivAt
      (fun t => ridgeGrad ridge (update θ j t)
        (dLLdh weights choice (longProbs M (h (update θ j t))) ᵥ* J (update θ j t)) i)
      (ridgeMat ridge (negQuad (J θ) (J θ) (longProbs M (h θ)) M weights) i j +
        ∑ r, defaultWeights weights r * (choice r - longProbs M (h θ) r) * m r) (θ j) := by
  have h1 : ∀ r, HasDerivAt (fun t => longProbs M (h (update θ j t)) r) _ (θ j) := fun r =>
    longProbs_hasDerivAt hM (h := fun t => h (update θ j t)) (h' := fun r => J θ r j)
      (t := θ j) (fun r => hJ r j) (by simpa using hb) r
  have h3 : HasDerivAt (fun t => ∑ r, defaultWeights weights r *
      (choice r - longProbs M (h (update θ j t)) r) * J (update θ j t) r i) _ (θ j) :=
    HasDerivAt.fun_sum fun r _ => (((h1 r).const_sub (choice r)).const_mul
      (defaultWeights weights r)).mul (h2 r)
  have h4 : HasDerivAt (fun t => 2 * ridge.getD 0 * update θ j t i)
      (2 * ridge.getD 0 * if i = j then 1 else 0) (θ j) := by
    refine HasDerivAt.const_mul _ ?_
    by_cases e : i = j
    · subst e; simpa using hasDerivAt_id' (θ i)
    · simpa [e] using hasDerivAt_const (θ j) (θ i)
  have e : (fun t => ridgeGrad ridge (update θ j t) (dLLdh weights choice
      (longProbs M (h (update θ j t))) ᵥ* J (update θ j t)) i) = fun t =>
      ∑ r, defaultWeights weights r * (choice r - longProbs M (h (update θ j t)) r) *
        J (update θ j t) r i - 2 * ridge.getD 0 * update θ j t i := by
    funext t; rw [ridgeGrad_eq]; rfl
  show HasDerivAt (fun t => ridgeGrad ridge (update θ j t) (dLLdh weights choice
      (longProbs M (h (update θ j t))) ᵥ* J (update θ j t)) i) _ _
  rw [e]
  refine (h3.sub h4).congr_deriv ?_
  simp only [update_eq_self]
  rw [ridgeMat_apply, negQuad_apply hM, Finset.sum_add_distrib]
  have : ∑ r, defaultWeights weights r * -(longProbs M (h θ) r * (J θ r j -
      ∑ s ∈ rowsOf f (f r), longProbs M (h θ) s * J θ s j)) * J θ r i =
      -∑ o, (∑ r ∈ rowsOf f o, defaultWeights weights r * longProbs M (h θ) r * J θ r i * J θ r j -
      (∑ r ∈ rowsOf f o, defaultWeights weights r * longProbs M (h θ) r * J θ r i) *
        ∑ r ∈ rowsOf f o, longProbs M (h θ) r * J θ r j) := by
    rw [sum_fiber f, ← Finset.sum_neg_distrib]
    refine Finset.sum_congr rfl fun o _ => ?_
    rw [Finset.sum_mul, ← Finset.sum_sub_distrib, ← Finset.sum_neg_distrib]
    refine Finset.sum_congr rfl fun r hr => ?_
    rw [mem_rowsOf.1 hr]; ring
  rw [this]; ring

/-- The derivative of the gradient formula: the Hessian formula of the code plus the term carrying
the second derivatives `J2` of the transformed utilities. -/
theorem gradient_partials {P : Type} [Fintype P] [DecidableEq P] {M : Matrix R O ℝ} {f : R → O}
    (hM : Indicates M f) (choice : R → ℝ) (weights : Option (R → ℝ)) (ridge : Option ℝ)
    {h : (P → ℝ) → R → ℝ} {J : (P → ℝ) → Matrix R P ℝ} {J2 : R → P → P → ℝ} {θ : P → ℝ}
    (hJ : HasJacobian h (J θ) θ) (hJ2 : ∀ r i, HasPartials (fun θ => J θ r i) (J2 r i) θ)
    (hb : ∀ r, |h θ r| < 700) :
    HasJacobian
      (fun θ => ridgeGrad ridge θ (dLLdh weights choice (longProbs M (h θ)) ᵥ* J θ))
      (fun i j => ridgeMat ridge (negQuad (J θ) (J θ) (longProbs M (h θ)) M weights) i j +
        ∑ r, defaultWeights weights r * (choice r - longProbs M (h θ) r) * J2 r i j) θ :=
  fun i j => gradient_partial_entry hM choice weights ridge hJ (fun r => hJ2 r i j) hb

/-! ## C24: MNL Hessian -/

/-- **C24**. The MNL Hessian is the Jacobian of the MNL gradient (any choices, weights, ridge). -/
theorem mnl_hessian {M : Matrix R O ℝ} {f : R → O} (hM : Indicates M f) (choice : R → ℝ)
    (weights : Option (R → ℝ)) (X : Matrix R K ℝ) (ids : R → ι) (rta : Matrix R A ℝ) (β : K → ℝ)
    (ridge : Option ℝ) (hb : ∀ r, |(X *ᵥ β) r| < 700) :
    HasJacobian
      (fun β => gradientNone (S := Empty) (I := Empty) mnlDerivs X choice
        (modelProbs (S := Empty) (I := Empty) β X ids M rta mnlTransform none none) weights ridge β)
      (hessianNone (S := Empty) (I := Empty) mnlDerivs X
        (modelProbs (S := Empty) (I := Empty) β X ids M rta mnlTransform none none) M ridge weights)
      β := by
  have hJ : HasJacobian (fun β => X *ᵥ β) X β := by
    have := beta_partials (S := Empty) (I := Empty) (X := X) (β := β) (ids := ids) (rta := rta)
      (fun _ _ _ h => h) (mnl_derivs_correct (X *ᵥ β) ids rta)
    simpa [mnlDerivs, mnlTransform] using this
  have key := gradient_partials hM choice weights ridge (J := fun _ => X) (J2 := fun _ _ _ => 0) hJ
    (fun r i j => hasDerivAt_const _ _) hb
  intro i j
  have k := key i j
  simp only [mul_zero, Finset.sum_const_zero, add_zero] at k
  simpa only [gradientNone, hessianNone, mnlDerivs, modelProbs, mnlTransform, Matrix.one_mul] using k

/-- **C24** (as second derivatives of the log-likelihood itself). -/
theorem mnl_hessian_second_derivative {M : Matrix R O ℝ} {f : R → O} (hM : Indicates M f)
    {choice : R → ℝ} {c : O → R} (hc : OneChoice f choice c) {weights : Option (R → ℝ)}
    (hw : ObsWeights f weights) (X : Matrix R K ℝ) (ids : R → ι) (rta : Matrix R A ℝ) (β : K → ℝ)
    (ridge : Option ℝ) (hb : ∀ r, |(X *ᵥ β) r| < 700) (i j : K) :
    HasDerivAt
      (fun t => deriv (fun u => calcLogLikelihood (S := Empty) (I := Empty)
        (update (update β j t) i u) X ids M rta choice mnlTransform none none ridge weights)
        (update β j t i))
      (hessianNone (S := Empty) (I := Empty) mnlDerivs X
        (modelProbs (S := Empty) (I := Empty) β X ids M rta mnlTransform none none) M ridge weights i j)
      (β j) := by
  refine (mnl_hessian hM choice weights X ids rta β ridge hb i j).congr_of_eventuallyEq ?_
  have cont : ∀ r, Continuous fun t => |(X *ᵥ update β j t) r| := by
    intro r
    refine continuous_abs.comp ?_
    simp only [mulVec, dotProduct]
    refine continuous_finset_sum _ fun k _ => continuous_const.mul ?_
    by_cases e : k = j
    · subst e; simpa using continuous_id'
    · simpa [e] using continuous_const
  have ev : ∀ᶠ t in 𝓝 (β j), ∀ r, |(X *ᵥ update β j t) r| < 700 := by
    rw [Filter.eventually_all]
    intro r
    exact (cont r).continuousAt.eventually_lt continuousAt_const (by simpa using hb r)
  filter_upwards [ev] with t ht
  exact (mnl_gradient hM hc hw X ids rta (update β j t) ridge ht i).deriv

/-! ## C25: Hessian of a model with a curved transformation -/

/-- Second derivative of the low branch of the Clog-log transformation. -/
noncomputable def Spec.clogSecond (v : ℝ) : ℝ :=
  Real.exp v * (1 - Real.exp (-Real.exp v) - Real.exp v * Real.exp (-Real.exp v)) /
    (1 - Real.exp (-Real.exp v)) ^ 2

theorem clogSecond_hasDerivAt (v : ℝ) : HasDerivAt clogDerivV (clogSecond v) v := by
  have e : clogDerivV = fun v => Real.exp v / (1 - Real.exp (-Real.exp v)) := by
    funext v; exact clogDerivV_eq v
  rw [e]
  have h0 : 1 - Real.exp (-Real.exp v) ≠ 0 := by
    have : Real.exp (-Real.exp v) < 1 := by rw [Real.exp_lt_one_iff]; linarith [Real.exp_pos v]
    linarith
  have h1 := (Real.hasDerivAt_exp v).div ((Real.hasDerivAt_exp v).neg.exp.const_sub 1) h0
  refine h1.congr_deriv ?_
  rw [clogSecond]
  congr 1
  simp only [Pi.neg_apply]
  ring

theorem clogSecond_pos (v : ℝ) : 0 < clogSecond v := by
  have hv := Real.exp_pos v
  have h1 := Real.add_one_lt_exp hv.ne'
  have h2 := Real.exp_pos (-Real.exp v)
  have h3 : Real.exp (Real.exp v) * Real.exp (-Real.exp v) = 1 := by rw [← Real.exp_add]; simp
  have h4 : Real.exp (-Real.exp v) < 1 := by rw [Real.exp_lt_one_iff]; linarith
  have h5 : 0 < 1 - Real.exp (-Real.exp v) - Real.exp v * Real.exp (-Real.exp v) := by nlinarith
  have h6 : 0 < 1 - Real.exp (-Real.exp v) := by linarith
  unfold clogSecond
  positivity

/-- **C25** (what is missing). For the Clog-log model (utilities below 3.7, no outside intercepts)
the derivative of the gradient is `calc_hessian` plus the sum over rows of
`weight * (choice - prob) * h''(v) * x_i * x_j`, a term the code does not compute. -/
theorem clog_hessian_missing_term {n : ℕ} {M : Matrix R O ℝ} {f : R → O} (hM : Indicates M f)
    (choice : R → ℝ) (weights : Option (R → ℝ)) (X : Matrix R K ℝ) (ids : R → ι)
    {rta : Matrix R (Fin (n + 1)) ℝ} (ref : Fin (n + 1))
    (β : K → ℝ) (ridge : Option ℝ) (hv : ∀ r, (X *ᵥ β) r < 3.7)
    (hb : ∀ r, |clogH ((X *ᵥ β) r)| < 700) :
    HasJacobian
      (fun β => gradientNone (S := Empty) (clogDerivs ref rta (X *ᵥ β)) X choice
        (modelProbs (S := Empty) β X ids M rta (clogTransform (some ref)) none none) weights ridge β)
      (fun i j => hessianNone (S := Empty) (clogDerivs ref rta (X *ᵥ β)) X
          (modelProbs (S := Empty) β X ids M rta (clogTransform (some ref)) none none) M ridge weights
          i j
        + ∑ r, defaultWeights weights r * (choice r -
            modelProbs (S := Empty) β X ids M rta (clogTransform (some ref)) none none r) *
            (clogSecond ((X *ᵥ β) r) * X r i * X r j)) β := by
  have hrow : ∀ r j t, (X *ᵥ update β j t) r = (X *ᵥ β) r + (t - β j) * X r j := by
    intro r k t
    simp only [mulVec, dotProduct]
    rw [← sub_eq_iff_eq_add', ← Finset.sum_sub_distrib, Finset.sum_eq_single k]
    · simp; ring
    · intro j _ hj; simp [hj]
    · simp
  have hlin : ∀ r j, HasDerivAt (fun t => (X *ᵥ update β j t) r) (X r j) (β j) := by
    intro r j
    simp only [hrow]
    simpa using (((hasDerivAt_id (β j)).sub_const (β j)).mul_const (X r j)).const_add ((X *ᵥ β) r)
  have hT : ∀ v : R → ℝ, clogTransform (S := Empty) (some ref) v ids rta none none =
      fun r => clogH (v r) := by
    intro v; funext r; simp [clogTransform, allIntercepts, mulVec, dotProduct]
  have hD : ∀ v : R → ℝ, (clogDerivs ref rta v).dhdv * X = Matrix.of fun r i => clogDerivV (v r) * X r i := by
    intro v; ext r i; simp [clogDerivs, Matrix.diagonal_mul]
  have hJ : HasJacobian (fun β r => clogH ((X *ᵥ β) r))
      (Matrix.of fun r i => clogDerivV ((X *ᵥ β) r) * X r i) β := by
    intro r j
    exact HasDerivAt.comp (h₂ := clogH) (β j) (by simpa using clog_hasDerivAt (hv r)) (hlin r j)
  have hJ2 : ∀ r i, HasPartials (fun β : K → ℝ =>
      (Matrix.of fun r i => clogDerivV ((X *ᵥ β) r) * X r i : Matrix R K ℝ) r i)
      (fun j => clogSecond ((X *ᵥ β) r) * X r i * X r j) β := by
    intro r i j
    have h1 := HasDerivAt.comp (h₂ := clogDerivV) (β j)
      (by simpa using clogSecond_hasDerivAt ((X *ᵥ β) r)) (hlin r j)
    refine (h1.mul_const (X r i)).congr_deriv (by ring)
  have key := gradient_partials hM choice weights ridge hJ hJ2 hb
  intro i j
  have k := key i j
  simpa only [gradientNone, hessianNone, modelProbs, hT, hD] using k

/-- One observation with two rows; the second row has zero utility. -/
def exX2 : Matrix (Fin 2) (Fin 1) ℝ := !![1; 0]

/-- **C25** (negation, a concrete data set): one observation, two alternatives, coefficient 0, the
first alternative chosen.  `calc_hessian` is not the derivative of the Clog-log gradient. -/
theorem clog_hessian_not_second_derivative :
    ¬ HasJacobian
      (fun β => gradientNone (S := Empty) (clogDerivs 0 exRta (exX2 *ᵥ β)) exX2 ![1, 0]
        (modelProbs (S := Empty) β exX2 (fun r => r) (fun _ (_ : Fin 1) => 1) exRta
          (clogTransform (some 0)) none none) none none β)
      (hessianNone (S := Empty) (clogDerivs 0 exRta (exX2 *ᵥ fun _ => 0)) exX2
        (modelProbs (S := Empty) (fun _ => 0) exX2 (fun r => r) (fun _ (_ : Fin 1) => 1) exRta
          (clogTransform (some 0)) none none) (fun _ (_ : Fin 1) => 1) none none)
      (fun _ => 0) := by
  intro hwrong
  have hM : Indicates (fun (_ : Fin 2) (_ : Fin 1) => (1 : ℝ)) (fun _ => 0) := by
    intro r o; fin_cases o; simp
  have hz : ∀ r, (exX2 *ᵥ fun _ => (0 : ℝ)) r = 0 := by
    intro r; simp [mulVec, dotProduct]
  have hb : ∀ r, |clogH ((exX2 *ᵥ fun _ => (0 : ℝ)) r)| < 700 := by
    intro r
    rw [hz, clogH_low (by norm_num)]
    have h1 : (1 : ℝ) < Real.exp (Real.exp 0) - 1 := by
      rw [Real.exp_zero]; linarith [Real.exp_one_gt_d9]
    have h2 := Real.log_pos h1
    have h3 := Real.log_le_sub_one_of_pos (show (0 : ℝ) < Real.exp (Real.exp 0) - 1 by linarith)
    rw [Real.exp_zero] at h2 h3 ⊢
    rw [abs_of_pos h2]
    linarith [Real.exp_one_lt_d9]
  have key := clog_hessian_missing_term hM ![1, 0] none exX2 (fun r : Fin 2 => r) (rta := exRta) 0
    (fun _ => 0) none (by intro r; rw [hz]; norm_num) hb 0 0
  have e := key.unique (hwrong 0 0)
  have hp : modelProbs (S := Empty) (fun _ => 0) exX2 (fun r : Fin 2 => r) (fun _ (_ : Fin 1) => 1) exRta
      (clogTransform (some 0)) none none 0 < 1 := by
    have hsum := longProbs_sum hM (clogTransform (S := Empty) (some 0) (exX2 *ᵥ fun _ => 0)
      (fun r : Fin 2 => r) exRta none none) 0
    have hpos := longProbs_pos hM (clogTransform (S := Empty) (some 0) (exX2 *ᵥ fun _ => 0)
      (fun r : Fin 2 => r) exRta none none) 1
    simp [rowsOf] at hsum
    simp only [modelProbs]
    linarith
  have hc := clogSecond_pos 0
  generalize modelProbs (S := Empty) (fun _ => 0) exX2 (fun r : Fin 2 => r) (fun _ (_ : Fin 1) => 1)
    exRta (clogTransform (some 0)) none none = P at e hp
  simp only [Fin.sum_univ_two, defaultWeights, hz] at e
  simp [exX2] at e
  rcases e with e | e
  · linarith
  · linarith

end Pylogit
