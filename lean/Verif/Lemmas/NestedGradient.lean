import Mathlib.Analysis.SpecialFunctions.Pow.Deriv
import Verif.Lemmas.Nested
import Verif.Lemmas.Gradient
import Verif.Props.Definiteness

/-! # Helper lemmas: derivative of the nested log-likelihood -/

set_option linter.unusedSectionVars false

open Finset Matrix Function

namespace Pylogit

open Spec

variable {R O K N : Type} [Fintype R] [Fintype O] [Fintype K] [Fintype N] [DecidableEq O]
  [DecidableEq N]

/-- Derivative of the scaled utility `V / λ` of row `r`. -/
noncomputable def dScaled (g : R → N) (V V' : R → ℝ) (lam lam' : N → ℝ) (r : R) : ℝ :=
  V' r / lam (g r) - V r * lam' (g r) / lam (g r) ^ 2

/-- Derivative of the log of a nest sum. -/
noncomputable def dLogSum (f : R → O) (g : R → N) (V V' : R → ℝ) (lam lam' : N → ℝ) (o : O) (m : N) :
    ℝ :=
  ∑ s ∈ nestRows f g o m, condProb f g V lam s * dScaled g V V' lam lam' s

section curve

variable {f : R → O} {g : R → N} {V : ℝ → R → ℝ} {V' : R → ℝ} {lam : ℝ → N → ℝ} {lam' : N → ℝ}
  {t : ℝ}

theorem scaled_hasDerivAt (hl : ∀ u m, 0 < lam u m)
    (hV : ∀ r, HasDerivAt (fun u => V u r) (V' r) t)
    (hL : ∀ m, HasDerivAt (fun u => lam u m) (lam' m) t) (r : R) :
    HasDerivAt (fun u => V u r / lam u (g r)) (dScaled g (V t) V' (lam t) lam' r) t := by
  refine ((hV r).div (hL (g r)) (hl t _).ne').congr_deriv ?_
  have := (hl t (g r)).ne'
  rw [dScaled]
  field_simp

theorem nestSum_hasDerivAt (hl : ∀ u m, 0 < lam u m)
    (hV : ∀ r, HasDerivAt (fun u => V u r) (V' r) t)
    (hL : ∀ m, HasDerivAt (fun u => lam u m) (lam' m) t) (o : O) (m : N)
    (hm : m ∈ availNests f g o) :
    HasDerivAt (fun u => nestSum f g (V u) (lam u) o m)
      (nestSum f g (V t) (lam t) o m * dLogSum f g (V t) V' (lam t) lam' o m) t := by
  have h1 : ∀ s ∈ nestRows f g o m, HasDerivAt (fun u => Real.exp (V u s / lam u m))
      (Real.exp (V t s / lam t m) * dScaled g (V t) V' (lam t) lam' s) t := by
    intro s hs
    have := (scaled_hasDerivAt (g := g) hl hV hL s).exp
    rwa [(mem_nestRows.1 hs).2] at this
  refine (HasDerivAt.fun_sum h1).congr_deriv ?_
  rw [dLogSum, Finset.mul_sum]
  refine Finset.sum_congr rfl fun s hs => ?_
  obtain ⟨rfl, rfl⟩ := mem_nestRows.1 hs
  have := (nestSum_pos (V t) (lam t) hm).ne'
  rw [condProb]
  field_simp

theorem nestPow_hasDerivAt (hl : ∀ u m, 0 < lam u m)
    (hV : ∀ r, HasDerivAt (fun u => V u r) (V' r) t)
    (hL : ∀ m, HasDerivAt (fun u => lam u m) (lam' m) t) (o : O) (m : N)
    (hm : m ∈ availNests f g o) :
    HasDerivAt (fun u => nestSum f g (V u) (lam u) o m ^ lam u m)
      (nestSum f g (V t) (lam t) o m ^ lam t m *
        (lam' m * Real.log (nestSum f g (V t) (lam t) o m) +
          lam t m * dLogSum f g (V t) V' (lam t) lam' o m)) t := by
  have hS := nestSum_pos (V t) (lam t) hm
  refine ((nestSum_hasDerivAt hl hV hL o m hm).rpow (hL m) hS).congr_deriv ?_
  rw [Real.rpow_sub_one hS.ne']
  field_simp
  ring

theorem log_nestedProb (f : R → O) (g : R → N) (V : R → ℝ) {lam : N → ℝ} (r : R) :
    Real.log (nestedProb f g V lam r) =
      V r / lam (g r) + (lam (g r) - 1) * Real.log (nestSum f g V lam (f r) (g r)) -
        Real.log (∑ m ∈ availNests f g (f r), nestSum f g V lam (f r) m ^ lam m) := by
  have hS := nestSum_pos V lam (own_avail f g r)
  have hD := nestDenom_pos f g V lam r
  rw [nestedProb, nestProb, condProb, Real.log_mul
    (div_pos (Real.rpow_pos_of_pos hS _) hD).ne' (div_pos (Real.exp_pos _) hS).ne',
    Real.log_div (Real.rpow_pos_of_pos hS _).ne' hD.ne', Real.log_div (Real.exp_pos _).ne' hS.ne',
    Real.log_exp, Real.log_rpow hS]
  ring

theorem log_nestedProb_hasDerivAt (hl : ∀ u m, 0 < lam u m)
    (hV : ∀ r, HasDerivAt (fun u => V u r) (V' r) t)
    (hL : ∀ m, HasDerivAt (fun u => lam u m) (lam' m) t) (r : R) :
    HasDerivAt (fun u => Real.log (nestedProb f g (V u) (lam u) r))
      (dScaled g (V t) V' (lam t) lam' r +
        lam' (g r) * Real.log (nestSum f g (V t) (lam t) (f r) (g r)) +
        (lam t (g r) - 1) * dLogSum f g (V t) V' (lam t) lam' (f r) (g r) -
        ∑ m ∈ availNests f g (f r), nestProb f g (V t) (lam t) (f r) m *
          (lam' m * Real.log (nestSum f g (V t) (lam t) (f r) m) +
            lam t m * dLogSum f g (V t) V' (lam t) lam' (f r) m)) t := by
  have hS := nestSum_pos (V t) (lam t) (own_avail f g r)
  have hD := nestDenom_pos f g (V t) (lam t) r
  have h1 := scaled_hasDerivAt (g := g) hl hV hL r
  have h2 := (nestSum_hasDerivAt (f := f) hl hV hL (f r) (g r) (own_avail f g r)).log hS.ne'
  have h3 := ((hL (g r)).sub_const 1).mul h2
  have h4 := (HasDerivAt.fun_sum fun m hm =>
    nestPow_hasDerivAt (f := f) (g := g) hl hV hL (f r) m hm).log hD.ne'
  have h5 := (h1.add h3).sub h4
  have e : (fun u => Real.log (nestedProb f g (V u) (lam u) r)) = fun u =>
      V u r / lam u (g r) + (lam u (g r) - 1) * Real.log (nestSum f g (V u) (lam u) (f r) (g r)) -
        Real.log (∑ m ∈ availNests f g (f r), nestSum f g (V u) (lam u) (f r) m ^ lam u m) :=
    funext fun u => log_nestedProb f g (V u) r
  rw [e]
  refine h5.congr_deriv ?_
  rw [Finset.sum_div, mul_div_cancel_left₀ _ hS.ne']
  congr 1
  · ring
  · refine Finset.sum_congr rfl fun m _ => ?_
    rw [nestProb]
    ring

end curve

theorem sum_over_obs (f : R → O) (x : R → ℝ) : ∑ r, x r = ∑ o, ∑ r ∈ rowsOf f o, x r :=
  (Finset.sum_fiberwise _ _ _).symm

theorem sum_choice {f : R → O} {choice : R → ℝ} {c : O → R} (hc : OneChoice f choice c)
    (x : R → ℝ) : ∑ r, choice r * x r = ∑ o, x (c o) := by
  rw [sum_over_obs f]
  refine Finset.sum_congr rfl fun o _ => ?_
  rw [Finset.sum_eq_single (c o)]
  · rw [hc.one, one_mul]
  · intro r hr hne
    rw [hc.zero r (by rw [mem_rowsOf.1 hr]; exact hne), zero_mul]
  · intro h; exact absurd (mem_rowsOf.2 (hc.mem o)) h

/-- Derivative of the weighted log-likelihood along a curve of utilities and nest coefficients. -/
theorem nested_ll_hasDerivAt {f : R → O} {g : R → N} {V : ℝ → R → ℝ} {V' : R → ℝ}
    {lam : ℝ → N → ℝ} {lam' : N → ℝ} {t : ℝ} {choice w : R → ℝ} {c : O → R}
    (hc : OneChoice f choice c) (hw : ∀ r s, f r = f s → w r = w s)
    (hl : ∀ u m, 0 < lam u m) (hV : ∀ r, HasDerivAt (fun u => V u r) (V' r) t)
    (hL : ∀ m, HasDerivAt (fun u => lam u m) (lam' m) t) :
    HasDerivAt (fun u => ∑ r, choice r * (w r * Real.log (nestedProb f g (V u) (lam u) r)))
      (∑ r, w r * ((choice r +
          (if g (c (f r)) = g r then 1 else 0) * (lam t (g r) - 1) * condProb f g (V t) (lam t) r -
          nestedProb f g (V t) (lam t) r * lam t (g r)) * dScaled g (V t) V' (lam t) lam' r) +
        ∑ m, lam' m * ∑ o, w (c o) * (((if g (c o) = m then 1 else 0) -
          if m ∈ availNests f g o then nestProb f g (V t) (lam t) o m else 0) *
            Real.log (nestSum f g (V t) (lam t) o m))) t := by
  have h1 : ∀ r ∈ (Finset.univ : Finset R), HasDerivAt
      (fun u => choice r * (w r * Real.log (nestedProb f g (V u) (lam u) r))) _ t := fun r _ =>
    ((log_nestedProb_hasDerivAt hl hV hL r).const_mul (w r)).const_mul (choice r)
  refine (HasDerivAt.fun_sum h1).congr_deriv ?_
  clear h1
  rw [sum_choice hc]
  -- split the row sum
  set du := dScaled g (V t) V' (lam t) lam' with hdu
  set P := condProb f g (V t) (lam t) with hP
  set p := nestedProb f g (V t) (lam t) with hp
  have e1 : ∑ r, w r * (choice r * du r) = ∑ o, w (c o) * du (c o) := by
    refine Eq.trans ?_ (sum_choice hc fun r => w r * du r)
    exact Finset.sum_congr rfl fun r _ => by ring
  have e2 : ∑ r, w r * ((if g (c (f r)) = g r then 1 else 0) * (lam t (g r) - 1) * P r * du r) =
      ∑ o, w (c o) * ((lam t (g (c o)) - 1) *
        dLogSum f g (V t) V' (lam t) lam' o (g (c o))) := by
    rw [sum_over_obs f]
    refine Finset.sum_congr rfl fun o _ => ?_
    rw [dLogSum, Finset.mul_sum, Finset.mul_sum]
    simp only [rowsOf, nestRows, Finset.sum_filter]
    refine Finset.sum_congr rfl fun r _ => ?_
    by_cases h1 : f r = o
    · subst h1
      by_cases h2 : g r = g (c (f r))
      · have : w (c (f r)) = w r := hw _ _ (hc.mem _)
        rw [if_pos rfl, if_pos h2.symm, if_pos ⟨rfl, h2⟩, this, ← h2]
        simp only [hP, hdu]
        ring
      · simp [h2, Ne.symm h2]
    · simp [h1]
  have e3 : ∑ r, w r * (p r * lam t (g r) * du r) =
      ∑ o, w (c o) * ∑ m ∈ availNests f g o, nestProb f g (V t) (lam t) o m *
        (lam t m * dLogSum f g (V t) V' (lam t) lam' o m) := by
    rw [sum_over_obs f]
    refine Finset.sum_congr rfl fun o _ => ?_
    rw [sum_by_nests f g, Finset.mul_sum]
    refine Finset.sum_congr rfl fun m _ => ?_
    rw [dLogSum, Finset.mul_sum, Finset.mul_sum, Finset.mul_sum]
    refine Finset.sum_congr rfl fun r hr => ?_
    obtain ⟨rfl, rfl⟩ := mem_nestRows.1 hr
    have : w (c (f r)) = w r := hw _ _ (hc.mem _)
    rw [this, hp, nestedProb, hdu]
    ring
  have e4 : ∑ m, lam' m * ∑ o, w (c o) * (((if g (c o) = m then 1 else 0) -
          if m ∈ availNests f g o then nestProb f g (V t) (lam t) o m else 0) *
            Real.log (nestSum f g (V t) (lam t) o m)) =
      ∑ o, w (c o) * (lam' (g (c o)) * Real.log (nestSum f g (V t) (lam t) o (g (c o))) -
        ∑ m ∈ availNests f g o, nestProb f g (V t) (lam t) o m *
          (lam' m * Real.log (nestSum f g (V t) (lam t) o m))) := by
    simp only [Finset.mul_sum]
    rw [Finset.sum_comm]
    refine Finset.sum_congr rfl fun o _ => ?_
    rw [mul_sub, Finset.mul_sum]
    have : ∀ m, lam' m * (w (c o) * (((if g (c o) = m then (1:ℝ) else 0) -
          if m ∈ availNests f g o then nestProb f g (V t) (lam t) o m else 0) *
            Real.log (nestSum f g (V t) (lam t) o m))) =
        (if g (c o) = m then w (c o) * (lam' m * Real.log (nestSum f g (V t) (lam t) o m)) else 0) -
        (if m ∈ availNests f g o then w (c o) * (nestProb f g (V t) (lam t) o m *
          (lam' m * Real.log (nestSum f g (V t) (lam t) o m))) else 0) := by
      intro m
      split_ifs <;> ring
    rw [Finset.sum_congr rfl fun m _ => this m, Finset.sum_sub_distrib]
    simp
  have e5 : ∑ r, w r * ((choice r + (if g (c (f r)) = g r then 1 else 0) * (lam t (g r) - 1) * P r -
      p r * lam t (g r)) * du r) = ∑ r, w r * (choice r * du r) +
      ∑ r, w r * ((if g (c (f r)) = g r then 1 else 0) * (lam t (g r) - 1) * P r * du r) -
      ∑ r, w r * (p r * lam t (g r) * du r) := by
    rw [← Finset.sum_add_distrib, ← Finset.sum_sub_distrib]
    exact Finset.sum_congr rfl fun r _ => by ring
  rw [e5, e1, e2, e3, e4, ← Finset.sum_add_distrib, ← Finset.sum_sub_distrib,
    ← Finset.sum_add_distrib]
  refine Finset.sum_congr rfl fun o _ => ?_
  have hfo := hc.mem o
  simp only [hfo]
  have : ∑ m ∈ availNests f g o, nestProb f g (V t) (lam t) o m *
      (lam' m * Real.log (nestSum f g (V t) (lam t) o m) +
        lam t m * dLogSum f g (V t) V' (lam t) lam' o m) =
      ∑ m ∈ availNests f g o, nestProb f g (V t) (lam t) o m *
        (lam' m * Real.log (nestSum f g (V t) (lam t) o m)) +
      ∑ m ∈ availNests f g o, nestProb f g (V t) (lam t) o m *
        (lam t m * dLogSum f g (V t) V' (lam t) lam' o m) := by
    rw [← Finset.sum_add_distrib]
    exact Finset.sum_congr rfl fun m _ => by ring
  rw [this]
  ring

theorem naturalize_hasDerivAt (raw : N → ℝ) (m m' : N) :
    HasDerivAt (fun u => naturalizeNestCoefs (update raw m u) m')
      (if m' = m then naturalizeNestCoefs raw m * (1 - naturalizeNestCoefs raw m) else 0)
      (raw m) := by
  by_cases h : m' = m
  · subst h
    have e : (fun u => naturalizeNestCoefs (update raw m' u) m') =
        fun u => (1 + Real.exp (-u))⁻¹ := by
      funext u; rw [naturalize_eq]; simp
    rw [e, if_pos rfl, naturalize_eq]
    have hp : 0 < 1 + Real.exp (-raw m') := by positivity
    have h1 := (((hasDerivAt_id (raw m')).neg.exp).const_add 1).inv hp.ne'
    refine h1.congr_deriv ?_
    simp only [id, Pi.neg_apply]
    field_simp
    ring
  · have e : (fun u => naturalizeNestCoefs (update raw m u) m') =
        fun _ => naturalizeNestCoefs raw m' := by
      funext u; rw [naturalize_eq, naturalize_eq]; simp [h]
    rw [e, if_neg h]
    exact hasDerivAt_const _ _

theorem mulVec_update_hasDerivAt [DecidableEq K] (X : Matrix R K ℝ) (β : K → ℝ) (k : K) (r : R) :
    HasDerivAt (fun t => (X *ᵥ update β k t) r) (X r k) (β k) := by
  have hlin : ∀ t, (X *ᵥ update β k t) r = (X *ᵥ β) r + (t - β k) * X r k := by
    intro t
    simp only [mulVec, dotProduct]
    rw [← sub_eq_iff_eq_add', ← Finset.sum_sub_distrib, Finset.sum_eq_single k]
    · simp; ring
    · intro j _ hj; simp [hj]
    · simp
  rw [funext hlin]
  simpa using (((hasDerivAt_id (β k)).sub_const (β k)).mul_const (X r k)).const_add ((X *ᵥ β) r)

end Pylogit
