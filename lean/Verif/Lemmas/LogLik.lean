import Verif.Lemmas.Choice
import Mathlib.Analysis.SpecialFunctions.Log.Deriv
import Mathlib.Analysis.SpecialFunctions.ExpDeriv
import Mathlib.Analysis.Calculus.Deriv.Pow
import Mathlib.Tactic.Ring
import Mathlib.Tactic.FieldSimp

/-! # Helper lemmas: derivative of the log-likelihood kernel -/

set_option linter.unusedSectionVars false

open Finset Matrix Filter Topology

namespace Pylogit

open Spec

variable {R O A K S I D ι : Type} [Fintype R] [Fintype O] [DecidableEq O]

theorem clip_eventuallyEq {x : ℝ} (hx : |x| < 700) : clipExponent =ᶠ[𝓝 x] id := by
  have : ∀ᶠ y in 𝓝 x, |y| < 700 := (continuous_abs.tendsto x).eventually_lt_const hx
  filter_upwards [this] with y hy
  exact clip_eq hy.le

theorem clip_hasDerivAt {x : ℝ} (hx : |x| < 700) : HasDerivAt clipExponent 1 x :=
  (hasDerivAt_id x).congr_of_eventuallyEq (clip_eventuallyEq hx)

theorem longExponentials_hasDerivAt {h : ℝ → R → ℝ} {h' : R → ℝ} {t : ℝ} {r : R}
    (hd : HasDerivAt (fun u => h u r) (h' r) t) (hb : |h t r| < 700) :
    HasDerivAt (fun u => longExponentials (h u) r) (longExponentials (h t) r * h' r) t := by
  have h1 : HasDerivAt (fun u => clipExponent (h u r)) (1 * h' r) t :=
    HasDerivAt.comp (h₂ := clipExponent) t (clip_hasDerivAt hb) hd
  simpa [longExponentials] using h1.exp

theorem log_longProbs {M : Matrix R O ℝ} {f : R → O} (hM : Indicates M f) (h : R → ℝ) (r : R) :
    Real.log (longProbs M h r) =
      clipExponent (h r) - Real.log (∑ s ∈ rowsOf f (f r), longExponentials h s) := by
  rw [longProbs_eq hM, Real.log_div (longExponentials_pos h r).ne' (denom_pos f h r).ne']
  simp [longExponentials]

/-- Derivative of a log probability along a curve of utilities. -/
theorem log_longProbs_hasDerivAt {M : Matrix R O ℝ} {f : R → O} (hM : Indicates M f)
    {h : ℝ → R → ℝ} {h' : R → ℝ} {t : ℝ} (hd : ∀ r, HasDerivAt (fun u => h u r) (h' r) t)
    (hb : ∀ r, |h t r| < 700) (r : R) :
    HasDerivAt (fun u => Real.log (longProbs M (h u) r))
      (h' r - ∑ s ∈ rowsOf f (f r), longProbs M (h t) s * h' s) t := by
  have h1 : HasDerivAt (fun u => clipExponent (h u r)) (1 * h' r) t :=
    HasDerivAt.comp (h₂ := clipExponent) t (clip_hasDerivAt (hb r)) (hd r)
  have h2 : HasDerivAt (fun u => ∑ s ∈ rowsOf f (f r), longExponentials (h u) s)
      (∑ s ∈ rowsOf f (f r), longExponentials (h t) s * h' s) t :=
    HasDerivAt.fun_sum fun s _ => longExponentials_hasDerivAt (hd s) (hb s)
  have h3 := h1.sub (h2.log (denom_pos f (h t) r).ne')
  have e : (∑ s ∈ rowsOf f (f r), longExponentials (h t) s * h' s) /
      (∑ s ∈ rowsOf f (f r), longExponentials (h t) s) =
      ∑ s ∈ rowsOf f (f r), longProbs M (h t) s * h' s := by
    rw [Finset.sum_div]
    refine Finset.sum_congr rfl fun s hs => ?_
    rw [longProbs_eq hM, mem_rowsOf.1 hs]; ring
  rw [e, one_mul] at h3
  refine h3.congr_of_eventuallyEq (Eventually.of_forall fun u => ?_)
  simp only [log_longProbs hM, Pi.sub_apply]

/-- Derivative of a probability along a curve of utilities. -/
theorem longProbs_hasDerivAt {M : Matrix R O ℝ} {f : R → O} (hM : Indicates M f)
    {h : ℝ → R → ℝ} {h' : R → ℝ} {t : ℝ} (hd : ∀ r, HasDerivAt (fun u => h u r) (h' r) t)
    (hb : ∀ r, |h t r| < 700) (r : R) :
    HasDerivAt (fun u => longProbs M (h u) r)
      (longProbs M (h t) r * (h' r - ∑ s ∈ rowsOf f (f r), longProbs M (h t) s * h' s)) t := by
  have h1 := (log_longProbs_hasDerivAt hM hd hb r).exp
  rw [Real.exp_log (longProbs_pos hM _ _)] at h1
  refine h1.congr_of_eventuallyEq (Eventually.of_forall fun u => ?_)
  exact (Real.exp_log (longProbs_pos hM _ _)).symm

/-- Interchange of summation: every (row, row) pair within an observation. -/
theorem sum_rowsOf_comm (f : R → O) (g : R → R → ℝ) :
    ∑ r, ∑ s ∈ rowsOf f (f r), g r s = ∑ s, ∑ r ∈ rowsOf f (f s), g r s := by
  simp only [rowsOf, Finset.sum_filter]
  rw [Finset.sum_comm]
  refine Finset.sum_congr rfl fun s _ => Finset.sum_congr rfl fun r _ => ?_
  by_cases hrs : f s = f r
  · simp [hrs]
  · simp [hrs, Ne.symm hrs]

/-- Per-observation weights: constant over the rows of an observation. -/
theorem sum_choice_weights {f : R → O} {choice w : R → ℝ} {c : O → R} (hc : OneChoice f choice c)
    (hw : ∀ r s, f r = f s → w r = w s) (s : R) :
    ∑ r ∈ rowsOf f (f s), choice r * w r = w s := by
  rw [Finset.sum_eq_single (c (f s))]
  · rw [hc.one, one_mul]; exact hw _ _ (hc.mem _)
  · intro r hr hne
    rw [hc.zero r (by rw [mem_rowsOf.1 hr]; exact hne), zero_mul]
  · intro hn; exact absurd (mem_rowsOf.2 (hc.mem (f s))) hn

/-- Derivative of the weighted log-likelihood along a curve of utilities. -/
theorem ll_hasDerivAt {M : Matrix R O ℝ} {f : R → O} (hM : Indicates M f)
    {choice w : R → ℝ} {c : O → R} (hc : OneChoice f choice c)
    (hw : ∀ r s, f r = f s → w r = w s)
    {h : ℝ → R → ℝ} {h' : R → ℝ} {t : ℝ} (hd : ∀ r, HasDerivAt (fun u => h u r) (h' r) t)
    (hb : ∀ r, |h t r| < 700) :
    HasDerivAt (fun u => ∑ r, choice r * (w r * Real.log (longProbs M (h u) r)))
      (∑ r, (w r * (choice r - longProbs M (h t) r)) * h' r) t := by
  have h1 : HasDerivAt (fun u => ∑ r, choice r * (w r * Real.log (longProbs M (h u) r)))
      (∑ r, choice r * (w r * (h' r - ∑ s ∈ rowsOf f (f r), longProbs M (h t) s * h' s))) t :=
    HasDerivAt.fun_sum fun r _ =>
      ((log_longProbs_hasDerivAt hM hd hb r).const_mul (w r)).const_mul (choice r)
  convert h1 using 1
  have e1 : ∑ r, choice r * (w r * (h' r - ∑ s ∈ rowsOf f (f r), longProbs M (h t) s * h' s)) =
      ∑ r, choice r * w r * h' r -
        ∑ r, ∑ s ∈ rowsOf f (f r), choice r * w r * (longProbs M (h t) s * h' s) := by
    rw [← Finset.sum_sub_distrib]
    refine Finset.sum_congr rfl fun r _ => ?_
    rw [← Finset.mul_sum]; ring
  rw [e1, sum_rowsOf_comm, ← Finset.sum_sub_distrib]
  refine Finset.sum_congr rfl fun s _ => ?_
  rw [← Finset.sum_mul, sum_choice_weights hc hw s]
  ring

end Pylogit
