import Verif.Props.HessianBlocks

/-!
# C25: data on which `calc_hessian` is not the derivative of the gradient, for each model

One observation, two alternatives with one row each, the first alternative chosen; the design is a
single variable that is 1 for the first alternative and 0 for the second (`exX2`), its coefficient
is 0.  (The Clog-log case is `clog_hessian_not_second_derivative`.)
-/

set_option linter.unusedSectionVars false

open Finset Matrix Function

namespace Pylogit

open Spec

private lemma one_obs : Indicates (fun (_ : Fin 2) (_ : Fin 1) => (1 : ℝ)) (fun _ => 0) := by
  intro r o; fin_cases o; simp

private lemma exX2_zero (r : Fin 2) : (exX2 *ᵥ fun _ => (0 : ℝ)) r = 0 := by
  simp [mulVec, dotProduct]

/-- Some probability is left for the alternative that was not chosen. -/
private lemma first_prob_lt_one {A S I ι : Type} (β : Fin 1 → ℝ) (ids : Fin 2 → ι)
    (rta : Matrix (Fin 2) A ℝ) (T : Transform (Fin 2) A S I ι) (icpt : Option (I → ℝ))
    (shape : Option (S → ℝ)) :
    modelProbs β exX2 ids (fun _ (_ : Fin 1) => 1) rta T icpt shape 0 < 1 := by
  have hsum := longProbs_sum one_obs (T (exX2 *ᵥ β) ids rta shape icpt) 0
  have hpos := longProbs_pos one_obs (T (exX2 *ᵥ β) ids rta shape icpt) 1
  simp [rowsOf] at hsum
  simp only [modelProbs]
  linarith

private lemma exRta_mulVec (g : Fin 2 → ℝ) : exRta *ᵥ g = g := by simp [exRta]

private lemma exX2_line (t : ℝ) (r : Fin 2) :
    (exX2 *ᵥ fun _ => t) r = t * exX2 r 0 := by
  simp [mulVec, dotProduct, mul_comm]

/-- The second derivative of the Uneven transformation at utility 0 with natural shape `c`. -/
private lemma unevenDerivV_deriv (c : ℝ) :
    HasDerivAt (unevenDerivV c) (1 / 4 - c ^ 2 / 4) 0 := by
  have h1 : HasDerivAt (fun v : ℝ => 1 + Real.exp (-1 * v)) (-1) 0 := by
    have := ((hasDerivAt_id (0 : ℝ)).const_mul (-1)).exp.const_add 1
    simpa using this
  have h2 : HasDerivAt (fun v : ℝ => 1 + Real.exp (c * v)) c 0 := by
    have := ((hasDerivAt_id (0 : ℝ)).const_mul c).exp.const_add 1
    simpa using this
  have h3 := (h1.inv (by simp)).add ((h2.inv (by simp)).const_mul c)
  have e : unevenDerivV c = fun v => (1 + Real.exp (-1 * v))⁻¹ + c * (1 + Real.exp (c * v))⁻¹ := by
    funext v; simp [unevenDerivV, div_eq_mul_inv]
  rw [e]
  refine h3.congr_deriv ?_
  simp
  ring

/-- **C25** (negation for Uneven, natural shapes 2). -/
theorem uneven_hessian_not_second_derivative :
    ¬ HasJacobian
      (fun θ : Fin 2 ⊕ Fin 1 → ℝ => gradientShape
        (unevenDerivs 0 exRta (fun j => θ (.inl j)) (exX2 *ᵥ fun k => θ (.inr k))) exX2 ![1, 0]
        (modelProbs (fun k => θ (.inr k)) exX2 (fun r => r) (fun _ (_ : Fin 1) => 1) exRta
          (unevenTransform (some 0)) none (some fun j => θ (.inl j))) none none
        (fun j => θ (.inl j)) (fun k => θ (.inr k)))
      (hessianShape (unevenDerivs 0 exRta (fun _ => Real.log 2) (exX2 *ᵥ fun _ => 0)) exX2
        (modelProbs (fun _ => 0) exX2 (fun r => r) (fun _ (_ : Fin 1) => 1) exRta
          (unevenTransform (some 0)) none (some fun _ => Real.log 2)) (fun _ (_ : Fin 1) => 1)
        none none)
      (Sum.elim (fun _ => Real.log 2) fun _ => 0) := by
  intro hwrong
  have hb : ∀ r, |unevenTransform (some 0) (exX2 *ᵥ fun _ => (0 : ℝ)) (fun r : Fin 2 => r) exRta
      (some fun _ => Real.log 2) none r| < 700 := by
    intro r
    simp [unevenTransform, exX2_zero, unevenH, allIntercepts, exRta]
  have key := hessian_missing_entry_shape (i := .inr 0) (j := .inr 0)
    (m := fun r => (1 / 4 - 2 ^ 2 / 4) * exX2 r 0 * exX2 r 0) one_obs ![1, 0] (weights := none)
    (by intro w h; cases h)
    (d := fun θ => unevenDerivs 0 exRta (fun j => θ (.inl j)) (exX2 *ᵥ fun k => θ (.inr k)))
    (s := fun _ => Real.log 2) (β := fun _ => 0) none
    (fun r v v' h => by simp [unevenTransform, h])
    (uneven_derivs_correct 0 exRta_indicates _ (fun r : Fin 2 => r) _ _) ?_ hb
  · have e := key.unique (hwrong (.inr 0) (.inr 0))
    have hp := first_prob_lt_one (fun _ => 0) (fun r : Fin 2 => r) exRta (unevenTransform (some 0))
      none (some fun _ => Real.log 2)
    simp only [Sum.elim_inr, Sum.elim_inl] at e
    generalize modelProbs (fun _ => 0) exX2 (fun r : Fin 2 => r) (fun _ (_ : Fin 1) => 1) exRta
      (unevenTransform (some 0)) none (some fun _ => Real.log 2) = P at e hp
    simp only [Fin.sum_univ_two, defaultWeights] at e
    simp [exX2] at e
    rcases e with e | e
    · linarith
    · norm_num at e
  · intro r
    refine HasDerivAt.congr_of_eventuallyEq (f := fun t => unevenDerivV 2 (t * exX2 r 0) * exX2 r 0) ?_
      (Filter.Eventually.of_forall fun t => ?_)
    swap
    · have e1 : (fun k => update (Sum.elim (fun _ : Fin 2 => Real.log 2) fun _ => (0 : ℝ))
          (.inr (0 : Fin 1)) t (.inr k)) = fun _ => t := by
        funext k; fin_cases k; simp
      show ((unevenDerivs (n := 1) _ _ _ _).dhdv * exX2 : Matrix (Fin 2) (Fin 1) ℝ) r 0 = _
      rw [unevenDerivs, Matrix.diagonal_mul, e1, exX2_line, exRta_mulVec]
      simp [Real.exp_log]
    have h1 : HasDerivAt (fun t : ℝ => t * exX2 r 0) (exX2 r 0) 0 := by
      simpa using (hasDerivAt_id (0 : ℝ)).mul_const (exX2 r 0)
    have h2 := HasDerivAt.comp (h₂ := unevenDerivV 2) 0 (by simpa using unevenDerivV_deriv 2) h1
    refine (h2.mul_const (exX2 r 0)).congr_deriv (by ring)

/-- The second derivative of the Scobit transformation at utility 0 with natural shape 2. -/
private lemma scobitDerivV_deriv : HasDerivAt (scobitDerivV 2) (-(2 / 9)) 0 := by
  have e : scobitDerivV 2 = fun v => 2 * (1 + Real.exp (-1 * v)) * (2 + Real.exp (-1 * v))⁻¹ := by
    funext v
    have hu := Real.exp_pos (-1 * v)
    have h2 : (1 + Real.exp (-1 * v)) ^ (2 : ℝ) - 1 =
        Real.exp (-1 * v) * (2 + Real.exp (-1 * v)) := by
      rw [Real.rpow_two]; ring
    have h1 : (1 + Real.exp (-1 * v)) ^ ((2 : ℝ) - 1) = 1 + Real.exp (-1 * v) := by
      norm_num
    have h0 : Real.exp (-1 * v) * (2 + Real.exp (-1 * v)) ≠ 0 := by positivity
    simp only [scobitDerivV, h1, h2]
    rw [if_neg (by push Not; exact ⟨hu.ne', h0⟩)]
    field_simp
  have h : ∀ a : ℝ, HasDerivAt (fun v : ℝ => a + Real.exp (-1 * v)) (-1) 0 := by
    intro a
    have := ((hasDerivAt_id (0 : ℝ)).const_mul (-1)).exp.const_add a
    simpa using this
  rw [e]
  refine (((h 1).const_mul 2).mul ((h 2).inv (by simp; norm_num))).congr_deriv ?_
  simp
  norm_num

/-- **C25** (negation for Scobit, natural shapes 2). -/
theorem scobit_hessian_not_second_derivative :
    ¬ HasJacobian
      (fun θ : Fin 2 ⊕ Fin 1 → ℝ => gradientShape
        (scobitDerivs 0 exRta (fun j => θ (.inl j)) (exX2 *ᵥ fun k => θ (.inr k))) exX2 ![1, 0]
        (modelProbs (fun k => θ (.inr k)) exX2 (fun r => r) (fun _ (_ : Fin 1) => 1) exRta
          (scobitTransform (some 0)) none (some fun j => θ (.inl j))) none none
        (fun j => θ (.inl j)) (fun k => θ (.inr k)))
      (hessianShape (scobitDerivs 0 exRta (fun _ => Real.log 2) (exX2 *ᵥ fun _ => 0)) exX2
        (modelProbs (fun _ => 0) exX2 (fun r => r) (fun _ (_ : Fin 1) => 1) exRta
          (scobitTransform (some 0)) none (some fun _ => Real.log 2)) (fun _ (_ : Fin 1) => 1)
        none none)
      (Sum.elim (fun _ => Real.log 2) fun _ => 0) := by
  intro hwrong
  have hb : ∀ r, |scobitTransform (some 0) (exX2 *ᵥ fun _ => (0 : ℝ)) (fun r : Fin 2 => r) exRta
      (some fun _ => Real.log 2) none r| < 700 := by
    intro r
    simp only [scobitTransform, exX2_zero, exRta, Matrix.one_mulVec, scobitH, allIntercepts]
    rw [Real.exp_log (by norm_num)]
    norm_num
    have h1 := Real.log_pos (show (1 : ℝ) < 3 by norm_num)
    have h2 := Real.log_le_sub_one_of_pos (show (0 : ℝ) < 3 by norm_num)
    rw [abs_of_pos h1]
    linarith
  have key := hessian_missing_entry_shape (i := .inr 0) (j := .inr 0)
    (m := fun r => (-(2 / 9)) * exX2 r 0 * exX2 r 0) one_obs ![1, 0] (weights := none)
    (by intro w h; cases h)
    (d := fun θ => scobitDerivs 0 exRta (fun j => θ (.inl j)) (exX2 *ᵥ fun k => θ (.inr k)))
    (s := fun _ => Real.log 2) (β := fun _ => 0) none
    (fun r v v' h => by simp [scobitTransform, h])
    (scobit_derivs_correct 0 exRta_indicates _ (fun r : Fin 2 => r) _ _) ?_ hb
  · have e := key.unique (hwrong (.inr 0) (.inr 0))
    have hp := first_prob_lt_one (fun _ => 0) (fun r : Fin 2 => r) exRta (scobitTransform (some 0))
      none (some fun _ => Real.log 2)
    simp only [Sum.elim_inr, Sum.elim_inl] at e
    generalize modelProbs (fun _ => 0) exX2 (fun r : Fin 2 => r) (fun _ (_ : Fin 1) => 1) exRta
      (scobitTransform (some 0)) none (some fun _ => Real.log 2) = P at e hp
    simp only [Fin.sum_univ_two, defaultWeights] at e
    simp [exX2] at e
    linarith
  · intro r
    refine HasDerivAt.congr_of_eventuallyEq (f := fun t => scobitDerivV 2 (t * exX2 r 0) * exX2 r 0) ?_
      (Filter.Eventually.of_forall fun t => ?_)
    swap
    · have e1 : (fun k => update (Sum.elim (fun _ : Fin 2 => Real.log 2) fun _ => (0 : ℝ))
          (.inr (0 : Fin 1)) t (.inr k)) = fun _ => t := by
        funext k; fin_cases k; simp
      show ((scobitDerivs (n := 1) _ _ _ _).dhdv * exX2 : Matrix (Fin 2) (Fin 1) ℝ) r 0 = _
      rw [scobitDerivs, Matrix.diagonal_mul, e1, exX2_line, exRta_mulVec]
      simp [Real.exp_log]
    have h1 : HasDerivAt (fun t : ℝ => t * exX2 r 0) (exX2 r 0) 0 := by
      simpa using (hasDerivAt_id (0 : ℝ)).mul_const (exX2 r 0)
    have h2 := HasDerivAt.comp (h₂ := scobitDerivV 2) 0 (by simpa using scobitDerivV_deriv) h1
    refine (h2.mul_const (exX2 r 0)).congr_deriv (by ring)

/-- **C25** (negation for Asymmetric, the entry of the coefficient and the shape parameter). -/
theorem asym_hessian_not_second_derivative :
    ¬ HasJacobian
      (fun θ : Fin 1 ⊕ Fin 1 → ℝ => gradientShape
        (asymDerivs 0 0 exRta (fun j => θ (.inl j)) (exX2 *ᵥ fun k => θ (.inr k))) exX2 ![1, 0]
        (modelProbs (fun k => θ (.inr k)) exX2 (fun r => r) (fun _ (_ : Fin 1) => 1) exRta
          (asymTransform 0 (some 0)) none (some fun j => θ (.inl j))) none none
        (fun j => θ (.inl j)) (fun k => θ (.inr k)))
      (hessianShape (asymDerivs 0 0 exRta (fun _ => 0) (exX2 *ᵥ fun _ => 0)) exX2
        (modelProbs (fun _ => 0) exX2 (fun r => r) (fun _ (_ : Fin 1) => 1) exRta
          (asymTransform 0 (some 0)) none (some fun _ => 0)) (fun _ (_ : Fin 1) => 1)
        none none)
      (Sum.elim (fun _ => 0) fun _ => 0) := by
  intro hwrong
  have hc : ∀ r : Fin 2, convertEtaToC 0 (fun _ : Fin 1 => (0 : ℝ)) r = 1 / ((1 + 1 : ℕ) : ℝ) := by
    intro r
    have := asym_zero_shape_natural (n := 1) 0 r
    simpa using this
  have hb : ∀ r, |asymTransform 0 (some 0) (exX2 *ᵥ fun _ => (0 : ℝ)) (fun r : Fin 2 => r) exRta
      (some fun _ => 0) none r| < 700 := by
    intro r
    simp only [asymTransform, exX2_zero, exRta, Matrix.one_mulVec, hc, asymH, allIntercepts]
    rw [logGuard_pos (by norm_num)]
    norm_num
    rw [one_div, Real.log_inv, abs_neg]
    have h1 := Real.log_pos (show (1 : ℝ) < 2 by norm_num)
    have h2 := Real.log_le_sub_one_of_pos (show (0 : ℝ) < 2 by norm_num)
    rw [abs_of_pos h1]
    linarith
  have key := hessian_missing_entry_shape (i := .inr 0) (j := .inl 0)
    (m := fun r => 1 / 2 * exX2 r 0) one_obs ![1, 0] (weights := none)
    (by intro w h; cases h)
    (d := fun θ => asymDerivs 0 0 exRta (fun j => θ (.inl j)) (exX2 *ᵥ fun k => θ (.inr k)))
    (s := fun _ => 0) (β := fun _ => 0) none
    (fun r v v' h => by simp [asymTransform, h])
    (asym_derivs_correct_partial (by norm_num) 0 0 exRta_indicates _ (fun r : Fin 2 => r) _ _
      (fun r => .inr (hc r))) ?_ hb
  · have e := key.unique (hwrong (.inr 0) (.inl 0))
    have hp := first_prob_lt_one (fun _ => 0) (fun r : Fin 2 => r) exRta (asymTransform 0 (some 0))
      none (some fun _ => 0)
    simp only [Sum.elim_inr, Sum.elim_inl] at e
    generalize modelProbs (fun _ => 0) exX2 (fun r : Fin 2 => r) (fun _ (_ : Fin 1) => 1) exRta
      (asymTransform 0 (some 0)) none (some fun _ => 0) = P at e hp
    simp only [Fin.sum_univ_two, defaultWeights] at e
    simp [exX2] at e
    linarith
  · intro r
    refine HasDerivAt.congr_of_eventuallyEq (f := fun t => Real.log (1 + Real.exp t) * exX2 r 0) ?_
      (Filter.Eventually.of_forall fun t => ?_)
    swap
    · have e1 : (fun k => update (Sum.elim (fun _ : Fin 1 => (0 : ℝ)) fun _ : Fin 1 => (0 : ℝ))
          (.inl (0 : Fin 1)) t (.inr k)) = fun _ => 0 := by
        funext k; simp
      have e2 : (fun k => update (Sum.elim (fun _ : Fin 1 => (0 : ℝ)) fun _ : Fin 1 => (0 : ℝ))
          (.inl (0 : Fin 1)) t (.inl k)) = fun _ => t := by
        funext k; fin_cases k; simp
      show ((asymDerivs (n := 1) _ _ _ _ _).dhdv * exX2 : Matrix (Fin 2) (Fin 1) ℝ) r 0 = _
      rw [asymDerivs, Matrix.diagonal_mul, e1, e2, exX2_zero, exRta_mulVec]
      fin_cases r
      · have h0 : convertEtaToC 0 (fun _ : Fin 1 => t) 0 = 1 / (1 + Real.exp t) := by
          rw [convertEtaToC_ref]; simp [add_comm]
        have hpos : 0 < 1 + Real.exp t := by positivity
        simp only [asymDerivV, Fin.zero_eta, Fin.isValue, h0]
        rw [logGuard_pos (by positivity)]
        simp
      · simp [exX2]
    have h1 : HasDerivAt (fun t : ℝ => Real.log (1 + Real.exp t)) (1 / 2) 0 := by
      have := ((Real.hasDerivAt_exp 0).const_add 1).log (by positivity)
      refine this.congr_deriv ?_
      norm_num
    exact h1.mul_const (exX2 r 0)

end Pylogit
