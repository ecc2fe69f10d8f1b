import Verif.Props.Estimation

/-!
# C51, C55: what the code does not do

Concrete data sets on which the stated property fails, and the true part of C55.
-/

set_option linter.unusedSectionVars false

open Finset Matrix

namespace Pylogit

open Spec

/-! ## C51: Newton steps on a logit-type model move constrained parameters -/

/-- One observation, two alternatives, two identical columns. -/
noncomputable def exTwoCols : FitData (Fin 2) (Fin 1) (Fin 2) (Fin 2) ℕ where
  design := !![1, 1; 0, 0]
  altIDs := ![1, 2]
  rowsToObs := Matrix.of fun _ _ => 1
  rowsToAlts := 1
  choice := ![1, 0]

theorem exTwoCols_indicates : Indicates exTwoCols.rowsToObs (fun _ => 0) := by
  intro r o; fin_cases o; simp [exTwoCols]

theorem exTwoCols_probs (r : Fin 2) :
    modelProbs (S := Empty) (I := Empty) (fun _ => 0) exTwoCols.design exTwoCols.altIDs
      exTwoCols.rowsToObs exTwoCols.rowsToAlts mnlTransform none none r = 1 / 2 := by
  have h0 : exTwoCols.design *ᵥ (fun _ => (0 : ℝ)) = fun _ => 0 := by
    funext r; simp [mulVec, dotProduct]
  rw [modelProbs, h0, longProbs_eq_logitProb exTwoCols_indicates r (by intro s _; simp [mnlTransform])]
  simp [logitProb, mnlTransform, rowsOf]

/-- **C51** (fails for MNL with Newton's method). Parameter 0 is constrained; the Hessian handed to the
optimiser is not masked, so the Newton equation has a unique solution and it moves parameter 0. -/
theorem mnl_newton_moves_constrained :
    let e := mnlEstimator exTwoCols (some 1) none (some [0])
    (∃ p, e.negHessian (fun _ => 0) *ᵥ p = -(e.negLLAndGrad fun _ => 0).2) ∧
      ∀ p, e.negHessian (fun _ => 0) *ᵥ p = -(e.negLLAndGrad fun _ => 0).2 → p 0 = -1 / 40 := by
  have hp : (modelProbs (S := Empty) (I := Empty) (fun _ => 0) exTwoCols.design exTwoCols.altIDs
      exTwoCols.rowsToObs exTwoCols.rowsToAlts mnlTransform none none) = fun _ => 1 / 2 :=
    funext exTwoCols_probs
  have hg : -((mnlEstimator exTwoCols (some 1) none (some [0])).negLLAndGrad fun _ => 0).2 =
      ![0, 1 / 2] := by
    funext i
    simp only [Estimator.negLLAndGrad, mnlEstimator, estimatorNone]
    rw [hp]
    fin_cases i
    · simp
    · simp [gradientNone, mnlDerivs, ridgeGrad, vecMul, dotProduct, dLLdh, estWeights, defaultWeights,
        exTwoCols]
      norm_num
  have hH : (mnlEstimator exTwoCols (some 1) none (some [0])).negHessian (fun _ => 0) =
      !![9 / 4, 1 / 4; 1 / 4, 9 / 4] := by
    simp only [Estimator.negHessian, mnlEstimator, estimatorNone]
    rw [hp]
    refine Matrix.ext fun i j => ?_
    fin_cases i <;> fin_cases j <;>
    · simp [hessianNone, mnlDerivs, ridgeMat, negQuad, quadraticProd, scaleRows, estWeights,
        defaultWeights, exTwoCols, Matrix.mul_apply]
      norm_num
  simp only [hg, hH]
  refine ⟨⟨![-1 / 40, 9 / 40], ?_⟩, fun p h => ?_⟩
  · funext i
    fin_cases i <;> simp [mulVec, dotProduct] <;> norm_num
  · have h0 := congrFun h 0
    have h1 := congrFun h 1
    simp [mulVec, dotProduct] at h0 h1
    linarith

/-! ## C55: weights given to `fit_mle` -/

section Weights

variable {R O A K ι P : Type}

/-- **C55** (fails, all models). The fit does not depend on the weights passed to `fit_mle`. -/
theorem fit_ignores_weights [Fintype P] [DecidableEq P] (m : Minimizer P)
    (mk : Option (R → ℝ) → Estimator P) (w w' : Option (R → ℝ)) (init : P → ℝ) :
    fitMle m mk w init = fitMle m mk w' init := rfl

variable [Fintype R] [DecidableEq R] [Fintype O] [DecidableEq O] [Fintype K] [DecidableEq K]

/-- **C55** (the part that holds). An estimator that is given weights has the weighted log-likelihood as
its objective, and an exact optimiser maximises it. -/
theorem weighted_estimator_partial {f : R → O} {c : O → R} (d : FitData R O A K ι)
    (hc : OneChoice f d.choice c) (ridge : Option ℝ) (w : R → ℝ) {m : Minimizer K}
    (hm : FindsMinimum m (mnlEstimator d ridge (some w) none).negLLAndGrad) (init β : K → ℝ) :
    (∀ β, (mnlEstimator d ridge (some w) none).logLik β =
      ∑ o, w (c o) * Real.log (modelProbs (S := Empty) (I := Empty) β d.design d.altIDs d.rowsToObs
        d.rowsToAlts mnlTransform none none (c o)) - ridge.getD 0 * ∑ k, β k ^ 2) ∧
    (mnlEstimator d ridge (some w) none).logLik β ≤
      (mnlEstimator d ridge (some w) none).logLik
        (estimate m (mnlEstimator d ridge (some w) none) init).params := by
  constructor
  · intro β
    have := loglik_formula (S := Empty) (I := Empty) (M := d.rowsToObs) hc β d.design d.altIDs
      d.rowsToAlts mnlTransform none none ridge (some w)
    simp only [Option.getD_some, penalty, univ_eq_empty, sum_empty, zero_add] at this
    exact this
  · have h := hm init
      (mnlEstimator d ridge (some w) none).negHessian β
    rw [(constrained_gradient_fst _ _), (constrained_gradient_fst _ _)] at h
    exact neg_le_neg_iff.1 h

end Weights

/-- Two observations with the same two alternatives and opposite choices. -/
noncomputable def exOpposite : FitData (Fin 4) (Fin 2) (Fin 2) (Fin 1) ℕ where
  design := !![1; 0; 1; 0]
  altIDs := ![1, 2, 1, 2]
  rowsToObs := Matrix.of fun r o => if (![0, 0, 1, 1] : Fin 4 → Fin 2) r = o then 1 else 0
  rowsToAlts := Matrix.of fun r a => if (![0, 1, 0, 1] : Fin 4 → Fin 2) r = a then 1 else 0
  choice := ![1, 0, 0, 1]

/-- Observation 0 counts twice. -/
def exOppositeW : Fin 4 → ℝ := ![2, 2, 1, 1]

theorem exOpposite_oneChoice : OneChoice (![0, 0, 1, 1] : Fin 4 → Fin 2) exOpposite.choice ![0, 3] where
  mem := by decide
  one := by intro o; fin_cases o <;> simp [exOpposite]
  zero := by intro r; fin_cases r <;> simp [exOpposite]

/-- The probability of alternative 1 under coefficient `b`. -/
noncomputable def exShare (b : ℝ) : ℝ :=
  Real.exp (clip700 b) / (Real.exp (clip700 b) + 1)

theorem clip700_zero : clip700 0 = 0 := by simp [clip700]

theorem exOpposite_probs (β : Fin 1 → ℝ) :
    modelProbs (S := Empty) (I := Empty) β exOpposite.design exOpposite.altIDs exOpposite.rowsToObs
      exOpposite.rowsToAlts mnlTransform none none =
      ![exShare (β 0), 1 - exShare (β 0), exShare (β 0), 1 - exShare (β 0)] := by
  have hB : Indicates exOpposite.rowsToObs (![0, 0, 1, 1] : Fin 4 → Fin 2) := fun r o => rfl
  have h1 : (Real.exp (clip700 (β 0)) + 1) ≠ 0 := by positivity
  funext r
  rw [modelProbs, longProbs_eq_clippedLogit hB]
  have hr0 : rowsOf (![0, 0, 1, 1] : Fin 4 → Fin 2) 0 = {0, 1} := by decide
  have hr1 : rowsOf (![0, 0, 1, 1] : Fin 4 → Fin 2) 1 = {2, 3} := by decide
  fin_cases r <;>
  · simp [clippedLogit, logitProb, hr0, hr1, mnlTransform, mulVec, dotProduct, exOpposite,
      clip700_zero, exShare]
    try field_simp
    try ring

theorem exOpposite_loglik (w : Option (Fin 4 → ℝ)) (β : Fin 1 → ℝ) :
    (mnlEstimator exOpposite none w none).logLik β =
      defaultWeights w 0 * Real.log (exShare (β 0)) +
        defaultWeights w 3 * Real.log (1 - exShare (β 0)) := by
  have := loglik_formula (S := Empty) (I := Empty) (M := exOpposite.rowsToObs) exOpposite_oneChoice β
    exOpposite.design exOpposite.altIDs exOpposite.rowsToAlts mnlTransform none none none
    (estWeights w)
  refine this.trans ?_
  rw [exOpposite_probs]
  simp [penalty, estWeights]

/-- **C55** (fails). Whatever exact optimiser is used: the coefficients `fit_mle(..., weights=w)` returns
for this data do not maximise the log-likelihood weighted by `w`. -/
theorem fit_not_weighted {m : Minimizer (Fin 1)}
    (hm : FindsMinimum m (mnlEstimator exOpposite none none none).negLLAndGrad) (init : Fin 1 → ℝ) :
    ∃ β, (mnlEstimator exOpposite none (some exOppositeW) none).logLik
        (fitMle m (fun w => mnlEstimator exOpposite none w none) (some exOppositeW) init).params
      < (mnlEstimator exOpposite none (some exOppositeW) none).logLik β := by
  have hopt := hm init
      (mnlEstimator exOpposite none none none).negHessian (fun _ => 0)
  rw [constrained_gradient_fst, constrained_gradient_fst, neg_le_neg_iff] at hopt
  have hpar : (fitMle m (fun w => mnlEstimator exOpposite none w none) (some exOppositeW) init).params =
      (m (mnlEstimator exOpposite none none none).negLLAndGrad init
      (mnlEstimator exOpposite none none none).negHessian).x := rfl
  rw [hpar]
  generalize (m (mnlEstimator exOpposite none none none).negLLAndGrad init
      (mnlEstimator exOpposite none none none).negHessian).x = x at hopt
  have hs0 : exShare 0 = 1 / 2 := by rw [exShare, clip700_zero]; norm_num
  have hlog2 : exShare (Real.log 2) = 2 / 3 := by
    have h2 : Real.log 2 < 1 := by have := Real.log_two_lt_d9; linarith
    have h3 : 0 < Real.log 2 := Real.log_pos (by norm_num)
    have : clip700 (Real.log 2) = Real.log 2 := by
      rw [clip700, min_eq_left (by linarith), max_eq_right (by linarith)]
    rw [exShare, this, Real.exp_log (by norm_num)]; norm_num
  have hq0 : 0 < exShare (x 0) := by unfold exShare; positivity
  have hq1 : exShare (x 0) < 1 := by
    unfold exShare
    rw [div_lt_one (by positivity)]
    linarith
  simp only [exOpposite_loglik, defaultWeights, Option.getD_none, one_mul, hs0] at hopt
  rw [← Real.log_mul (by norm_num) (by norm_num), ← Real.log_mul hq0.ne' (by linarith)] at hopt
  have hle := (Real.log_le_log_iff (by norm_num) (mul_pos hq0 (by linarith))).1 hopt
  have hhalf : exShare (x 0) = 1 / 2 := by nlinarith [sq_nonneg (exShare (x 0) - 1 / 2)]
  refine ⟨fun _ => Real.log 2, ?_⟩
  simp only [exOpposite_loglik, defaultWeights, Option.getD_some, exOppositeW, hhalf, hlog2]
  have e1 : (2 : ℝ) * Real.log (1 / 2) + 1 * Real.log (1 - 1 / 2) = Real.log (1 / 8) := by
    rw [show (1 : ℝ) / 8 = (1 / 2) ^ 2 * (1 - 1 / 2) by norm_num, Real.log_mul (by norm_num) (by norm_num),
      Real.log_pow]
    norm_num
  have e2 : (2 : ℝ) * Real.log (2 / 3) + 1 * Real.log (1 - 2 / 3) = Real.log (4 / 27) := by
    rw [show (4 : ℝ) / 27 = (2 / 3) ^ 2 * (1 - 2 / 3) by norm_num,
      Real.log_mul (by norm_num) (by norm_num), Real.log_pow]
    norm_num
  have := Real.log_lt_log (by norm_num) (show (1 : ℝ) / 8 < 4 / 27 by norm_num)
  rw [← e1, ← e2] at this
  exact this

/-- There are exact optimisers for the example: zero is optimal. -/
example : FindsMinimum (fun _ _ _ => ⟨fun _ => 0, 0⟩ : Minimizer (Fin 1))
    (mnlEstimator exOpposite none none none).negLLAndGrad := by
  intro x₀ h y
  have hs0 : exShare 0 = 1 / 2 := by rw [exShare, clip700_zero]; norm_num
  have hq0 : 0 < exShare (y 0) := by unfold exShare; positivity
  have hq1 : exShare (y 0) < 1 := by
    unfold exShare
    rw [div_lt_one (by positivity)]
    linarith
  rw [constrained_gradient_fst, constrained_gradient_fst, neg_le_neg_iff]
  simp only [exOpposite_loglik, defaultWeights, Option.getD_none, one_mul, hs0]
  rw [← Real.log_mul hq0.ne' (by linarith), ← Real.log_mul (by norm_num) (by norm_num)]
  refine Real.log_le_log (mul_pos hq0 (by linarith)) ?_
  nlinarith [sq_nonneg (exShare (y 0) - 1 / 2)]

/-- The weights of the example are valid: one positive weight per row, equal within observations. -/
example : ObsWeights (![0, 0, 1, 1] : Fin 4 → Fin 2) (some exOppositeW) ∧
    checkWeights (.array 1 (List.ofFn exOppositeW)) 4 = .ok () := by
  constructor
  · rintro w ⟨⟩ r s
    fin_cases r <;> fin_cases s <;> simp [exOppositeW]
  · rw [checkWeights_iff]
    exact .inr ⟨_, rfl, by simp, by intro x hx; rw [List.mem_ofFn] at hx; obtain ⟨i, rfl⟩ := hx; fin_cases i <;> norm_num [exOppositeW]⟩

/-- A faithful descending optimiser exists (it stays where it is) and the example meets the other
hypotheses of `mnl_fit_rho_range`. -/
example : Faithful (fun f x₀ _ => ⟨x₀, (f x₀).1⟩ : Minimizer (Fin 1)) ∧
    Descends (fun f x₀ _ => ⟨x₀, (f x₀).1⟩ : Minimizer (Fin 1)) ∧
    2 ≤ (rowsOf (![0, 0, 1, 1] : Fin 4 → Fin 2) 0).card :=
  ⟨fun _ _ _ => rfl, fun _ _ _ => le_rfl, by decide⟩

/-- A gradient method that really moves: one steepest-descent step. It is also a Hessian method. -/
example : GradientMethod (fun f x₀ _ => ⟨x₀ - (f x₀).2, (f (x₀ - (f x₀).2)).1⟩ : Minimizer (Fin 2)) ∧
    HessianMethod (fun f x₀ _ => ⟨x₀ - (f x₀).2, (f (x₀ - (f x₀).2)).1⟩ : Minimizer (Fin 2)) := by
  constructor
  · intro f x₀ h
    simp only [sub_sub_cancel_left]
    exact Submodule.neg_mem _ (Submodule.subset_span ⟨x₀, rfl⟩)
  · intro f x₀ h
    simp only [sub_sub_cancel_left]
    refine Submodule.neg_mem _ ?_
    rw [krylovSpan, Submodule.mem_sInf]
    exact fun W hW => hW.1 x₀

end Pylogit
