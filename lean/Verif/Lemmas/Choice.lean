import Verif.Spec.Choice
import Mathlib.Tactic.Linarith
import Mathlib.Tactic.Positivity
import Mathlib.Algebra.BigOperators.Field
import Mathlib.Algebra.Order.BigOperators.Group.Finset

/-! # Helper lemmas about the probability kernel -/

open Finset Matrix

namespace Pylogit

open Spec

variable {R O A K S I D ι : Type}

theorem longExponentials_pos (h : R → ℝ) (r : R) : 0 < longExponentials h r := Real.exp_pos _

theorem minCompValue_pos : 0 < minCompValue := by unfold minCompValue; positivity

theorem minCompValue_lt_one : minCompValue < 1 := by
  unfold minCompValue
  exact inv_lt_one_of_one_lt₀ (one_lt_pow₀ (by norm_num) (by norm_num))

theorem clip_le (h : ℝ) : clipExponent h ≤ 700 := by
  unfold clipExponent maxExponentVal minExponentVal; split_ifs <;> linarith

theorem le_clip (h : ℝ) : -700 ≤ clipExponent h := by
  unfold clipExponent maxExponentVal minExponentVal; split_ifs <;> linarith

theorem clip_eq {h : ℝ} (hh : |h| ≤ 700) : clipExponent h = h := by
  rw [abs_le] at hh
  unfold clipExponent maxExponentVal minExponentVal
  rw [if_neg (by linarith), if_neg (by linarith)]

theorem clip_mono {a b : ℝ} (hab : a ≤ b) : clipExponent a ≤ clipExponent b := by
  unfold clipExponent maxExponentVal minExponentVal; split_ifs <;> linarith

variable [Fintype R] [DecidableEq O]

@[simp] theorem mem_rowsOf {f : R → O} {o : O} {r : R} : r ∈ rowsOf f o ↔ f r = o := by
  simp [rowsOf]

theorem individualDenominators_eq {M : Matrix R O ℝ} {f : R → O} (hM : Indicates M f)
    (h : R → ℝ) (o : O) :
    individualDenominators M h o = ∑ r ∈ rowsOf f o, longExponentials h r := by
  simp only [individualDenominators, mulVec, dotProduct, transpose_apply, hM _ _, rowsOf, ite_mul,
    one_mul, zero_mul, Finset.sum_filter]

omit [Fintype R] in
theorem mulVec_indicates [Fintype O] {M : Matrix R O ℝ} {f : R → O} (hM : Indicates M f)
    (x : O → ℝ) (r : R) : (M *ᵥ x) r = x (f r) := by
  simp [mulVec, dotProduct, hM _ _]

theorem denom_pos (f : R → O) (h : R → ℝ) (r : R) :
    0 < ∑ s ∈ rowsOf f (f r), longExponentials h s :=
  Finset.sum_pos (fun s _ => longExponentials_pos h s) ⟨r, by simp⟩

theorem longProbs_eq [Fintype O] {M : Matrix R O ℝ} {f : R → O} (hM : Indicates M f)
    (h : R → ℝ) (r : R) :
    longProbs M h r = longExponentials h r / ∑ s ∈ rowsOf f (f r), longExponentials h s := by
  have h1 : rawLongProbs M h r =
      longExponentials h r / ∑ s ∈ rowsOf f (f r), longExponentials h s := by
    rw [rawLongProbs, mulVec_indicates hM, individualDenominators_eq hM]
  have h2 : 0 < rawLongProbs M h r := by
    rw [h1]; exact div_pos (longExponentials_pos _ _) (denom_pos f h r)
  simp only [longProbs]
  rw [if_neg h2.ne', h1]

theorem longProbs_pos [Fintype O] {M : Matrix R O ℝ} {f : R → O} (hM : Indicates M f)
    (h : R → ℝ) (r : R) : 0 < longProbs M h r := by
  rw [longProbs_eq hM]; exact div_pos (longExponentials_pos _ _) (denom_pos f h r)

theorem longProbs_le_one [Fintype O] {M : Matrix R O ℝ} {f : R → O} (hM : Indicates M f)
    (h : R → ℝ) (r : R) : longProbs M h r ≤ 1 := by
  rw [longProbs_eq hM, div_le_one (denom_pos f h r)]
  exact Finset.single_le_sum (f := fun s => longExponentials h s)
    (fun s _ => (longExponentials_pos h s).le) (by simp)

theorem longProbs_sum [Fintype O] {M : Matrix R O ℝ} {f : R → O} (hM : Indicates M f)
    (h : R → ℝ) (r : R) : ∑ s ∈ rowsOf f (f r), longProbs M h s = 1 := by
  have : ∀ s ∈ rowsOf f (f r), longProbs M h s =
      longExponentials h s / ∑ t ∈ rowsOf f (f r), longExponentials h t := by
    intro s hs
    rw [longProbs_eq hM, mem_rowsOf.1 hs]
  rw [Finset.sum_congr rfl this, ← Finset.sum_div, div_self (denom_pos f h r).ne']

theorem longProbs_eq_logitProb [Fintype O] {M : Matrix R O ℝ} {f : R → O} (hM : Indicates M f)
    {h : R → ℝ} (r : R) (hh : ∀ s, f s = f r → |h s| ≤ 700) :
    longProbs M h r = logitProb f h r := by
  rw [longProbs_eq hM, logitProb]
  have e : ∀ s, f s = f r → longExponentials h s = Real.exp (h s) := by
    intro s hs; rw [longExponentials, clip_eq (hh s hs)]
  rw [e r rfl]
  congr 1
  exact Finset.sum_congr rfl fun s hs => e s (mem_rowsOf.1 hs)

theorem chosenProbs_eq [Fintype O] {M C : Matrix R O ℝ} {f : R → O} (hM : Indicates M f)
    {choice : R → ℝ} {c : O → R} (hc : OneChoice f choice c)
    (hC : ∀ r o, C r o = M r o * choice r) (h : R → ℝ) (o : O) :
    chosenProbs M C h o = longProbs M h (c o) := by
  rw [longProbs_eq hM, chosenProbs, individualDenominators_eq hM, hc.mem]
  congr 1
  simp only [mulVec, dotProduct, transpose_apply, hC, hM _ _]
  rw [Finset.sum_eq_single (c o)]
  · simp [hc.mem, hc.one]
  · intro r _ hr
    by_cases hf : f r = o
    · have : choice r = 0 := hc.zero r (by rw [hf]; exact hr)
      simp [this]
    · simp [hf]
  · simp

end Pylogit
