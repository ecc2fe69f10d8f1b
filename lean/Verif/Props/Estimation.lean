import Mathlib.Analysis.SpecialFunctions.Log.Deriv
import Mathlib.Analysis.Complex.ExponentialBounds
import Verif.Spec.Optim
import Verif.Props.Gradient
import Verif.Props.Mixed
import Verif.Props.Nested

/-!
# C51, C52, C54-C56: estimation
-/

set_option linter.unusedSectionVars false

open Finset Matrix

namespace Pylogit

open Spec

variable {R O A K S I N M D P ι : Type}

/-! ## C56: the weights check -/

/-- **C56**. Weights are accepted iff they are absent or a one-dimensional array with one non-negative
entry per row. -/
theorem checkWeights_iff (w : WeightsArg) (n : ℕ) :
    checkWeights w n = .ok () ↔
      w = .none ∨ ∃ vals, w = .array 1 vals ∧ vals.length = n ∧ ∀ x ∈ vals, 0 ≤ x := by
  classical
  cases w with
  | none => simp [checkWeights]
  | notArray => simp [checkWeights]
  | array d vals =>
    simp only [checkWeights]
    by_cases h1 : d = 1
    · by_cases h2 : vals.length = n
      · by_cases h3 : ∃ x ∈ vals, x < 0
        · rw [if_neg (not_not.2 h1), if_neg (not_not.2 h2), if_pos h3]
          constructor
          · intro h; cases h
          · rintro (h | ⟨v, h, -, hv⟩)
            · cases h
            · cases h
              obtain ⟨x, hx, hlt⟩ := h3
              exact absurd (hv x hx) (not_le.2 hlt)
        · rw [if_neg (not_not.2 h1), if_neg (not_not.2 h2), if_neg h3]
          push Not at h3
          subst h1
          exact ⟨fun _ => .inr ⟨vals, rfl, h2, h3⟩, fun _ => rfl⟩
      · rw [if_neg (not_not.2 h1), if_pos h2]
        constructor
        · intro h; cases h
        · rintro (h | ⟨v, h, hl, -⟩)
          · cases h
          · cases h; exact absurd hl h2
    · rw [if_pos h1]
      constructor
      · intro h; cases h
      · rintro (h | ⟨v, h, -, -⟩)
        · cases h
        · cases h; exact absurd rfl h1

/-- Rejection always is a `ValueError`. -/
theorem checkWeights_error (w : WeightsArg) (n : ℕ) (e : Err) (h : checkWeights w n = .error e) :
    e = .valueError := by
  classical
  cases w with
  | none => simp [checkWeights] at h
  | notArray => simp only [checkWeights] at h; cases h; rfl
  | array d vals =>
    simp only [checkWeights] at h
    split_ifs at h <;> cases h <;> rfl

/-- Accepted, and rejected for a negative entry and for a wrong length. -/
example : checkWeights (.array 1 [2, 0.5, 0]) 3 = .ok () ∧
    checkWeights (.array 1 [2, -1, 0]) 3 = .error .valueError ∧
    checkWeights (.array 1 [2, 1]) 3 = .error .valueError := by
  refine ⟨?_, ?_, ?_⟩
  · exact (checkWeights_iff _ _).2 (.inr ⟨_, rfl, rfl, by norm_num⟩)
  · simp [checkWeights]
  · simp [checkWeights]

/-! ## C54: individual chi-squares -/

section ChiSquare

variable [Fintype R] [Fintype O] [DecidableEq O]

/-- **C54**. With probabilities that are positive and sum to one within each observation, the
chi-square statistic of an observation whose chosen row has probability `p` is `1/p - 1`. -/
theorem chi_square_value {B : Matrix R O ℝ} {f : R → O} (hB : Indicates B f) {choice : R → ℝ}
    {c : O → R} (hc : OneChoice f choice c) {p : R → ℝ} (hpos : ∀ r, 0 < p r)
    (hsum : ∀ o, ∑ r ∈ rowsOf f o, p r = 1) (o : O) :
    individualChiSquares (fitResiduals choice p) p B o = 1 / p (c o) - 1 := by
  classical
  have h1 : individualChiSquares (fitResiduals choice p) p B o =
      ∑ r ∈ rowsOf f o, (choice r - p r) ^ 2 / p r := by
    simp only [individualChiSquares, fitResiduals, mulVec, dotProduct, transpose_apply, rowsOf]
    rw [Finset.sum_filter]
    exact Finset.sum_congr rfl fun r _ => by rw [hB r o]; split_ifs <;> simp
  have hmem : c o ∈ rowsOf f o := by simp [rowsOf, hc.mem o]
  have h2 : ∑ r ∈ rowsOf f o, (choice r - p r) ^ 2 / p r =
      ∑ r ∈ rowsOf f o, (p r + if r = c o then 1 / p (c o) - 2 else 0) := by
    refine Finset.sum_congr rfl fun r hr => ?_
    have hfr : f r = o := by simpa [rowsOf] using hr
    have hp := (hpos r).ne'
    by_cases h : r = c o
    · subst h
      rw [if_pos rfl, hc.one]
      field_simp
      ring
    · rw [if_neg h, hc.zero r (by rw [hfr]; exact h)]
      field_simp
      ring
  rw [h1, h2, Finset.sum_add_distrib, hsum, Finset.sum_ite_eq' , if_pos hmem]
  ring

/-- **C54** (sign). -/
theorem chi_square_nonneg {B : Matrix R O ℝ} {f : R → O} (hB : Indicates B f) {choice : R → ℝ}
    {c : O → R} (hc : OneChoice f choice c) {p : R → ℝ} (hpos : ∀ r, 0 < p r)
    (hsum : ∀ o, ∑ r ∈ rowsOf f o, p r = 1) (o : O) :
    0 ≤ individualChiSquares (fitResiduals choice p) p B o := by
  rw [chi_square_value hB hc hpos hsum]
  have hmem : c o ∈ rowsOf f o := by simp [rowsOf, hc.mem o]
  have hle : p (c o) ≤ 1 := by
    rw [← hsum o]
    exact Finset.single_le_sum (fun r _ => (hpos r).le) hmem
  rw [sub_nonneg]
  exact (one_le_div (hpos _)).2 hle

/-- **C54** for the probabilities a fitted logit-type model reports: nothing is assumed of them. -/
theorem chi_square_fit [Fintype K] {B : Matrix R O ℝ} {f : R → O} (hB : Indicates B f)
    {choice : R → ℝ} {c : O → R} (hc : OneChoice f choice c) (β : K → ℝ) (X : Matrix R K ℝ)
    (ids : R → ι) (rta : Matrix R A ℝ) (T : Transform R A S I ι) (icpt : Option (I → ℝ))
    (shape : Option (S → ℝ)) (o : O) :
    individualChiSquares (fitResiduals choice (modelProbs β X ids B rta T icpt shape))
        (modelProbs β X ids B rta T icpt shape) B o
      = 1 / modelProbs β X ids B rta T icpt shape (c o) - 1 :=
  chi_square_value hB hc (fun r => longProbs_pos hB _ r)
    (fun o => by have := longProbs_sum hB (T (X *ᵥ β) ids rta shape icpt) (c o)
                 rwa [hc.mem] at this) o

end ChiSquare

/-! ## C52: goodness of fit -/

/-- **C52** (rho-squared). -/
theorem rho_squared_range {ll ll0 : ℝ} (h0 : ll0 < 0) (h1 : ll0 ≤ ll) (h2 : ll ≤ 0) :
    0 ≤ rhoSquared ll ll0 ∧ rhoSquared ll ll0 ≤ 1 := by
  have h : ll / ll0 ≤ 1 := (div_le_one_of_neg h0).2 h1
  have h' : 0 ≤ ll / ll0 := div_nonneg_of_nonpos h2 h0.le
  constructor <;> simp only [rhoSquared] <;> linarith

/-- **C52** (adjusted rho-squared): smaller by exactly `k / |LL0|`. -/
theorem rho_bar_le {ll ll0 : ℝ} (h0 : ll0 < 0) (k : ℕ) :
    rhoBarSquared ll ll0 k = rhoSquared ll ll0 - k / |ll0| ∧
      rhoBarSquared ll ll0 k ≤ rhoSquared ll ll0 := by
  have e : rhoBarSquared ll ll0 k = rhoSquared ll ll0 - k / |ll0| := by
    rw [abs_of_neg h0, rhoBarSquared, rhoSquared]
    have := h0.ne
    field_simp
    ring
  refine ⟨e, ?_⟩
  rw [e]
  have : 0 ≤ (k : ℝ) / |ll0| := by positivity
  linarith

/-- **C52** (information criteria). AIC and BIC differ exactly in the penalty per parameter: 2
against the logarithm of the number of observations. -/
theorem aic_bic (ll : ℝ) (n k : ℕ) :
    computeAIC ll k = 2 * k - 2 * ll ∧ computeBIC ll n k = k * Real.log n - 2 * ll := by
  constructor
  · simp only [computeAIC]; ring
  · simp only [computeBIC]; ring

/-- **C52**. BIC is larger than AIC iff there are more than `e²` observations (and there is a
parameter). -/
theorem bic_gt_aic_iff (ll : ℝ) {n k : ℕ} (hn : 0 < n) (hk : 0 < k) :
    computeAIC ll k < computeBIC ll n k ↔ Real.exp 2 < n := by
  have hk' : (0 : ℝ) < k := by exact_mod_cast hk
  have hn' : (0 : ℝ) < n := by exact_mod_cast hn
  rw [(aic_bic ll n k).1, (aic_bic ll n k).2, ← Real.lt_log_iff_exp_lt hn']
  constructor
  · intro h; nlinarith
  · intro h; nlinarith

/-- In whole numbers: BIC exceeds AIC iff there are at least 8 observations. -/
theorem bic_gt_aic_iff_eight (ll : ℝ) {n k : ℕ} (hn : 0 < n) (hk : 0 < k) :
    computeAIC ll k < computeBIC ll n k ↔ 8 ≤ n := by
  rw [bic_gt_aic_iff ll hn hk]
  have e : Real.exp 2 = Real.exp 1 ^ 2 := by rw [← Real.exp_nat_mul]; norm_num
  have h1 := Real.exp_one_gt_d9
  have h2 := Real.exp_one_lt_d9
  rw [e]
  constructor
  · intro h
    have : (7 : ℝ) < n := by nlinarith
    exact_mod_cast this
  · intro h
    have : (8 : ℝ) ≤ n := by exact_mod_cast h
    nlinarith

/-- **C52** (fit level). For every model, whatever is fitted: if log-likelihoods are never positive,
the null log-likelihood is negative and the optimiser started at a point no worse than zero, the
stored statistics satisfy `0 ≤ rho² ≤ 1` and `rho-bar² ≤ rho²`. -/
theorem fit_rho_range [Fintype P] [DecidableEq P] {m : Minimizer P} (hm : Faithful m)
    (hd : Descends m) (e : Estimator P) (init : P → ℝ) (hneg : ∀ x, e.logLik x ≤ 0)
    (h0 : e.logLik (fun _ => 0) < 0) (hi : e.logLik (fun _ => 0) ≤ e.logLik init) :
    let s := estimate m e init
    s.finalLL = e.logLik s.params ∧ s.nullLL ≤ s.finalLL ∧
      0 ≤ s.rhoSq ∧ s.rhoSq ≤ 1 ∧ s.rhoBarSq ≤ s.rhoSq := by
  have hfst : ∀ x, (e.negLLAndGrad x).1 = -1 * e.logLik x := by
    intro x; unfold Estimator.negLLAndGrad; cases e.constrainedPos <;> rfl
  have h1 := hm e.negLLAndGrad init e.negHessian
  have h2 := hd e.negLLAndGrad init e.negHessian
  rw [hfst] at h1 h2
  have hf : (estimate m e init).finalLL = e.logLik (estimate m e init).params := by
    simp only [estimate, h1]; ring
  have hn : (estimate m e init).nullLL ≤ (estimate m e init).finalLL := by
    simp only [estimate]; linarith
  have h3 : (estimate m e init).finalLL ≤ 0 := by rw [hf]; exact hneg _
  have h4 := rho_squared_range (ll0 := (estimate m e init).nullLL) h0 hn h3
  exact ⟨hf, hn, h4.1, h4.2, (rho_bar_le h0 _).2⟩

/-- **C52** for the MNL model without ridge penalty: no hypothesis on the log-likelihood is left.
The optimiser starts at zero and some observation has at least two alternatives. -/
theorem mnl_fit_rho_range [Fintype R] [DecidableEq R] [Fintype O] [DecidableEq O] [Fintype K]
    [DecidableEq K] {m : Minimizer K} (hm : Faithful m) (hd : Descends m) {f : R → O} {c : O → R}
    (d : FitData R O A K ι) (hB : Indicates d.rowsToObs f) (hc : OneChoice f d.choice c)
    (h2 : ∃ o, 2 ≤ (rowsOf f o).card) (weightsKwarg : Option (R → ℝ)) (con : Option (List K)) :
    let s := fitMle m (fun w => mnlEstimator d none w con) weightsKwarg fun _ => 0
    s.nullLL = -∑ o, Real.log ((rowsOf f o).card : ℝ) ∧ s.nullLL ≤ s.finalLL ∧ s.finalLL ≤ 0 ∧
      0 ≤ s.rhoSq ∧ s.rhoSq ≤ 1 ∧ s.rhoBarSq ≤ s.rhoSq := by
  have hnull : (mnlEstimator d none none con).logLik (fun _ => 0) =
      -∑ o, Real.log ((rowsOf f o).card : ℝ) := by
    have := loglik_mnl_zero (S := Empty) (I := Empty) hB hc d.design d.altIDs d.rowsToAlts none
    exact Eq.trans rfl this
  have hneg : ∀ x, (mnlEstimator d none none con).logLik x ≤ 0 := by
    intro x
    refine loglik_nonpos (ridge := none) hB hc _ _ _ _ _ _ _ _ ?_ (by rintro _ ⟨⟩)
    intro w hw r
    simp only [estWeights, Option.some.injEq] at hw
    rw [← hw]; simp [defaultWeights]
  have hlt : (mnlEstimator d none none con).logLik (fun _ => 0) < 0 := by
    rw [hnull, neg_lt_zero]
    have hone : ∀ o, 1 ≤ (rowsOf f o).card := fun o =>
      Finset.card_pos.2 ⟨c o, by simp [rowsOf, hc.mem o]⟩
    obtain ⟨o, ho⟩ := h2
    refine Finset.sum_pos' (fun o _ => Real.log_nonneg (by exact_mod_cast hone o)) ⟨o, mem_univ _, ?_⟩
    exact Real.log_pos (by exact_mod_cast ho)
  obtain ⟨a, b, r1, r2, r3⟩ := fit_rho_range hm hd (mnlEstimator d none none con) (fun _ => 0) hneg hlt le_rfl
  exact ⟨hnull, b, by rw [fitMle, a]; exact hneg _, r1, r2, r3⟩

/-! ## C51: constrained parameters -/

section Constrained

variable [DecidableEq P]

/-- **C51** (gradient). The objective handed to the optimiser has a zero gradient at the constrained
positions and the negative gradient elsewhere; its value is the negative log-likelihood. -/
theorem constrained_gradient (e : Estimator P) (x : P → ℝ) (i : P) :
    (e.negLLAndGrad x).1 = -e.logLik x ∧
      ((∃ l, e.constrainedPos = some l ∧ i ∈ l) → (e.negLLAndGrad x).2 i = 0) ∧
      ((∀ l, e.constrainedPos = some l → i ∉ l) → (e.negLLAndGrad x).2 i = -e.gradient x i) := by
  unfold Estimator.negLLAndGrad
  cases h : e.constrainedPos with
  | none => simp
  | some l =>
    refine ⟨by simp, ?_, ?_⟩
    · rintro ⟨l', h', hi⟩; cases h'; simp [hi]
    · intro h'; simp [h' l rfl]

theorem constrained_gradient_fst (e : Estimator P) (x : P → ℝ) :
    (e.negLLAndGrad x).1 = -e.logLik x := by
  unfold Estimator.negLLAndGrad
  cases e.constrainedPos <;> simp

/-- **C51** (Hessian of nested and mixed models): constrained rows and columns are zero with -1 on the
diagonal, the rest is untouched. -/
theorem maskHessian_apply (H : Matrix P P ℝ) (l : List P) (a b : P) :
    maskHessian H l a b = if a ∈ l ∨ b ∈ l then (if a = b then -1 else 0) else H a b := by
  induction l generalizing H with
  | nil => simp [maskHessian]
  | cons i rest ih =>
    rw [maskHessian, ih]
    simp only [Matrix.of_apply, List.mem_cons]
    by_cases h1 : a ∈ rest ∨ b ∈ rest
    · rw [if_pos h1, if_pos (h1.imp .inr .inr)]
    · rw [if_neg h1]
      push Not at h1
      by_cases ha : a = i
      · by_cases hb : b = i
        · subst ha; subst hb; simp
        · subst ha; simp [hb, Ne.symm hb]
      · by_cases hb : b = i
        · subst hb; simp [ha]
        · simp [ha, hb, h1.1, h1.2]

/-- Directions with zero entry at `i`. -/
def zeroAt (i : P) : Submodule ℝ (P → ℝ) where
  carrier := {v | v i = 0}
  add_mem' := by intro a b ha hb; simp only [Set.mem_ofPred_eq, Pi.add_apply] at *; rw [ha, hb, add_zero]
  zero_mem' := rfl
  smul_mem' := by intro c v hv; simp only [Set.mem_ofPred_eq, Pi.smul_apply] at *; rw [hv, smul_zero]

theorem mem_zeroAt {i : P} {v : P → ℝ} : v ∈ zeroAt i ↔ v i = 0 := Iff.rfl

theorem gradientSpan_le (e : Estimator P) {l : List P} (hl : e.constrainedPos = some l) {i : P}
    (hi : i ∈ l) : gradientSpan e.negLLAndGrad ≤ zeroAt i := by
  rw [gradientSpan, Submodule.span_le]
  rintro v ⟨x, rfl⟩
  exact (constrained_gradient e x i).2.1 ⟨l, hl, hi⟩

variable [Fintype P]

/-- **C51** for gradient-based methods, every model: the constrained parameters of the fit are the
initial values. -/
theorem gradient_method_keeps_constrained {m : Minimizer P} (hm : GradientMethod m) (e : Estimator P)
    {l : List P} (hl : e.constrainedPos = some l) {i : P} (hi : i ∈ l) (init : P → ℝ) :
    (estimate m e init).params i = init i := by
  have h := gradientSpan_le e hl hi (hm e.negLLAndGrad init e.negHessian)
  rw [mem_zeroAt, Pi.sub_apply, sub_eq_zero] at h
  exact h

/-- The Hessian handed to the optimiser keeps the constrained directions. -/
def MaskedHessian (e : Estimator P) : Prop :=
  ∀ x l i, e.constrainedPos = some l → i ∈ l →
    ∀ b, e.hessian x i b = if b = i then -1 else 0

omit [Fintype P] in
theorem maskOpt_masked (H : Matrix P P ℝ) (con : Option (List P)) (l : List P)
    (i : P) (hl : con = some l) (hi : i ∈ l) (b : P) :
    maskOpt H con i b = if b = i then -1 else 0 := by
  subst hl
  simp only [maskOpt, maskHessian_apply, hi, true_or, if_true, eq_comm]

theorem krylovSpan_le (e : Estimator P) (he : MaskedHessian e) {l : List P}
    (hl : e.constrainedPos = some l) {i : P} (hi : i ∈ l) :
    krylovSpan e.negLLAndGrad e.negHessian ≤ zeroAt i := by
  refine sInf_le ⟨fun x => (constrained_gradient e x i).2.1 ⟨l, hl, hi⟩, fun x v hv => ?_⟩
  rw [mem_zeroAt] at hv ⊢
  rw [Estimator.negHessian, smul_mulVec]
  simp only [Pi.smul_apply, mulVec, dotProduct]
  rw [Finset.sum_eq_zero, smul_zero]
  intro b _
  rw [he x l i hl hi b]
  split_ifs with h
  · rw [h, hv, mul_zero]
  · rw [zero_mul]

theorem hessian_method_keeps {m : Minimizer P} (hm : HessianMethod m) (e : Estimator P)
    (he : MaskedHessian e) {l : List P} (hl : e.constrainedPos = some l) {i : P} (hi : i ∈ l)
    (init : P → ℝ) : (estimate m e init).params i = init i := by
  have h := krylovSpan_le e he hl hi (hm e.negLLAndGrad init e.negHessian)
  rw [mem_zeroAt, Pi.sub_apply, sub_eq_zero] at h
  exact h

/-- Newton steps with a masked Hessian never move a constrained parameter. -/
theorem newton_keeps (e : Estimator P) (he : MaskedHessian e) {l : List P}
    (hl : e.constrainedPos = some l) {i : P} (hi : i ∈ l) {x : ℕ → P → ℝ}
    (hx : NewtonRun (fun x => (e.negLLAndGrad x).2) e.negHessian x) (k : ℕ) : x k i = x 0 i := by
  induction k with
  | zero => rfl
  | succ k ih =>
    obtain ⟨p, α, hp, hs⟩ := hx k
    have h := congrFun hp i
    have hg := (constrained_gradient e (x k) i).2.1 ⟨l, hl, hi⟩
    rw [Estimator.negHessian, smul_mulVec] at h
    simp only [Pi.smul_apply, mulVec, dotProduct, Pi.neg_apply,
      hg, he (x k) l i hl hi, ite_mul, zero_mul, Finset.sum_ite_eq', mem_univ, if_true, smul_eq_mul]
      at h
    rw [hs, Pi.add_apply, Pi.smul_apply, ih, show p i = 0 by linarith, smul_zero, add_zero]

end Constrained

section Hess

variable [Fintype R] [Nonempty R] [Fintype O] [Fintype K] [DecidableEq K] [Fintype N] [DecidableEq N]

theorem nestedEstimator_masked (d : FitData R O A K ι) (Q : Matrix R N ℝ) (ridge : Option ℝ)
    (w : Option (R → ℝ)) (con : Option (List (N ⊕ K))) :
    MaskedHessian (nestedEstimator d Q ridge w con) :=
  fun x l i hl hi b => maskOpt_masked _ con l i hl hi b

theorem mixedEstimator_masked [Fintype M] [Fintype D] [Fintype P] [DecidableEq P]
    (X : R → D → P → ℝ) (B : Matrix R O ℝ) (C : Matrix R M ℝ) (choice : R → ℝ) (ridge : Option ℝ)
    (w : Option (R → ℝ)) (con : Option (List P)) :
    MaskedHessian (mixedEstimator X B C choice ridge w con) :=
  fun x l i hl hi b => maskOpt_masked _ con l i hl hi b

/-- **C51** for methods using Hessians, nested logit. -/
theorem nested_hessian_method_keeps_constrained {m : Minimizer (N ⊕ K)} (hm : HessianMethod m)
    (d : FitData R O A K ι) (Q : Matrix R N ℝ) (ridge : Option ℝ) (w : Option (R → ℝ))
    (l : List (N ⊕ K)) {i : N ⊕ K} (hi : i ∈ l) (init : N ⊕ K → ℝ) :
    (fitMle m (fun w => nestedEstimator d Q ridge w (some l)) w init).params i = init i :=
  hessian_method_keeps hm _ (nestedEstimator_masked d Q ridge none (some l)) rfl hi init

/-- **C51** for methods using Hessians, mixed logit. -/
theorem mixed_hessian_method_keeps_constrained [Fintype M] [Fintype D] [Fintype P] [DecidableEq P]
    {m : Minimizer P} (hm : HessianMethod m) (X : R → D → P → ℝ) (B : Matrix R O ℝ)
    (C : Matrix R M ℝ) (choice : R → ℝ) (ridge : Option ℝ) (w : Option (R → ℝ)) (l : List P) {i : P}
    (hi : i ∈ l) (init : P → ℝ) :
    (fitMle m (fun w => mixedEstimator X B C choice ridge w (some l)) w init).params i = init i :=
  hessian_method_keeps hm _ (mixedEstimator_masked X B C choice ridge none (some l)) rfl hi init

/-- **C51** for Newton's method, nested logit: no iterate moves a constrained parameter. -/
theorem nested_newton_keeps_constrained (d : FitData R O A K ι) (Q : Matrix R N ℝ) (ridge : Option ℝ)
    (w : Option (R → ℝ)) (l : List (N ⊕ K)) {i : N ⊕ K} (hi : i ∈ l) {x : ℕ → N ⊕ K → ℝ}
    (hx : NewtonRun (fun x => ((nestedEstimator d Q ridge w (some l)).negLLAndGrad x).2)
      (nestedEstimator d Q ridge w (some l)).negHessian x) (k : ℕ) : x k i = x 0 i :=
  newton_keeps _ (nestedEstimator_masked d Q ridge w (some l)) rfl hi hx k

/-- **C51** for Newton's method, mixed logit. -/
theorem mixed_newton_keeps_constrained [Fintype M] [Fintype D] [Fintype P] [DecidableEq P]
    (X : R → D → P → ℝ) (B : Matrix R O ℝ)
    (C : Matrix R M ℝ) (choice : R → ℝ) (ridge : Option ℝ) (w : Option (R → ℝ)) (l : List P) {i : P}
    (hi : i ∈ l) {x : ℕ → P → ℝ}
    (hx : NewtonRun (fun x => ((mixedEstimator X B C choice ridge w (some l)).negLLAndGrad x).2)
      (mixedEstimator X B C choice ridge w (some l)).negHessian x) (k : ℕ) : x k i = x 0 i :=
  newton_keeps _ (mixedEstimator_masked X B C choice ridge w (some l)) rfl hi hx k

end Hess

/-- A BFGS run only ever moves within the span of the gradients, so BFGS is a gradient method. -/
theorem bfgs_in_gradientSpan [Fintype P] [DecidableEq P] (f : (P → ℝ) → ℝ × (P → ℝ)) {x : ℕ → P → ℝ}
    {B : ℕ → Matrix P P ℝ} {α ρ : ℕ → ℝ} (h : BFGSRun (fun x => (f x).2) x B α ρ) (k : ℕ) :
    x k - x 0 ∈ gradientSpan f := by
  have hg : ∀ y, (f y).2 ∈ gradientSpan f := fun y => Submodule.subset_span ⟨y, rfl⟩
  have key : ∀ k, (∀ v ∈ gradientSpan f, B k *ᵥ v ∈ gradientSpan f) := by
    intro k
    induction k with
    | zero => intro v hv; rw [h.start, one_mulVec]; exact hv
    | succ k ih =>
      have hs : x (k + 1) - x k ∈ gradientSpan f := by
        rw [h.step k, sub_sub_cancel_left]
        exact Submodule.neg_mem _ (Submodule.smul_mem _ _ (ih _ (hg _)))
      have hy : (f (x (k + 1))).2 - (f (x k)).2 ∈ gradientSpan f := Submodule.sub_mem _ (hg _) (hg _)
      intro v hv
      have rank1 : ∀ (c : ℝ) (a b v : P → ℝ), a ∈ gradientSpan f →
          (c • vecMulVec a b) *ᵥ v ∈ gradientSpan f := by
        intro c a b v ha
        have : (c • vecMulVec a b) *ᵥ v = (c * (b ⬝ᵥ v)) • a := by
          funext i
          simp only [smul_mulVec, vecMulVec_mulVec, Pi.smul_apply, smul_eq_mul]
          simp [mul_comm, mul_left_comm]
        rw [this]
        exact Submodule.smul_mem _ _ ha
      rw [h.update k, add_mulVec, ← mulVec_mulVec, ← mulVec_mulVec]
      refine Submodule.add_mem _ ?_ (rank1 _ _ _ _ hs)
      rw [sub_mulVec, one_mulVec]
      have h1 : (1 - ρ k • vecMulVec ((f (x (k + 1))).2 - (f (x k)).2) (x (k + 1) - x k)) *ᵥ v ∈
          gradientSpan f := by
        rw [sub_mulVec, one_mulVec]
        exact Submodule.sub_mem _ hv (rank1 _ _ _ _ hy)
      exact Submodule.sub_mem _ (ih _ h1) (rank1 _ _ _ _ hs)
  induction k with
  | zero => simp
  | succ k ih =>
    have : x (k + 1) - x 0 = (x k - x 0) - α k • (B k *ᵥ (f (x k)).2) := by
      rw [h.step k]; abel
    rw [this]
    exact Submodule.sub_mem _ ih (Submodule.smul_mem _ _ (key k _ (hg _)))

/-- **C51** for BFGS, every model: no iterate moves a constrained parameter. -/
theorem bfgs_keeps_constrained [Fintype P] [DecidableEq P] (e : Estimator P) {l : List P}
    (hl : e.constrainedPos = some l) {i : P} (hi : i ∈ l) {x : ℕ → P → ℝ}
    {B : ℕ → Matrix P P ℝ} {α ρ : ℕ → ℝ} (h : BFGSRun (fun x => (e.negLLAndGrad x).2) x B α ρ) (k : ℕ) :
    x k i = x 0 i := by
  have := gradientSpan_le e hl hi (bfgs_in_gradientSpan e.negLLAndGrad h k)
  rw [mem_zeroAt, Pi.sub_apply, sub_eq_zero] at this
  exact this

end Pylogit
