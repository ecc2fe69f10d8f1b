import Mathlib.Data.EReal.Inv
import Verif.Props.Float

/-!
# C94: the arithmetic of the floating point model is that of the extended real numbers wherever rounding plays no part

A check of the model itself: its operations on infinities against Mathlib's extended real numbers.
-/

namespace Pylogit

open Fl

variable {A : FloatFormat}

namespace Spec

/-- The extended real number of a floating point value; zero for NaN. -/
noncomputable def _root_.Pylogit.Fl.val : Fl A → EReal
  | .fin x => (x.1 : EReal)
  | .pinf => ⊤
  | .ninf => ⊥
  | .nan => 0

/-- An infinity. -/
def _root_.Pylogit.Fl.IsInf (x : Fl A) : Prop := x.val = ⊤ ∨ x.val = ⊥

end Spec

theorem val_round_zero : (Fl.round A 0).val = 0 := by
  rw [Fl.round_zero]; rfl

/-- **C94**.  A sum is NaN exactly if a summand is or the summands are opposite infinities. -/
theorem fl_add_nan_iff (x y : Fl A) : x.add y = .nan ↔
    x = .nan ∨ y = .nan ∨ (x.IsInf ∧ y.IsInf ∧ x.val ≠ y.val) := by
  cases x <;> cases y <;> simp [Fl.add, Fl.IsInf, Fl.val, Fl.round_ne_nan]

/-- **C94**.  A sum with an infinity that is not NaN is that of the extended real numbers. -/
theorem fl_add_inf {x y : Fl A} (h : x.IsInf ∨ y.IsInf) (hn : x.add y ≠ .nan) : (x.add y).val = x.val + y.val := by
  cases x <;> cases y <;> simp_all [Fl.add, Fl.IsInf, Fl.val]

/-- **C94**.  A product is NaN exactly if a factor is or one is infinite and the other zero. -/
theorem fl_mul_nan_iff (x y : Fl A) : x.mul y = .nan ↔
    x = .nan ∨ y = .nan ∨ (x.IsInf ∧ y.val = 0) ∨ (x.val = 0 ∧ y.IsInf) := by
  cases x <;> cases y <;> simp [Fl.mul, Fl.IsInf, Fl.val, Fl.round_ne_nan, scaleInf] <;> split_ifs <;> simp_all

/-- **C94**.  A product with an infinity that is not NaN is that of the extended real numbers. -/
theorem fl_mul_inf {x y : Fl A} (h : x.IsInf ∨ y.IsInf) (hn : x.mul y ≠ .nan) : (x.mul y).val = x.val * y.val := by
  have key : ∀ r : ℝ, (scaleInf r : Fl A) ≠ .nan → (scaleInf r : Fl A).val = r * (⊤ : EReal) := by
    intro r hr
    rcases lt_trichotomy r 0 with h | h | h
    · rw [EReal.coe_mul_top_of_neg h]; simp [scaleInf, h.ne, h.not_gt, Fl.val]
    · exact absurd (by simp [scaleInf, h]) hr
    · rw [EReal.coe_mul_top_of_pos h]; simp [scaleInf, h.ne', h, Fl.val]
  have flip : ∀ r : ℝ, (r : EReal) * ⊥ = ((-r : ℝ) : EReal) * ⊤ := by
    intro r
    rw [EReal.coe_neg, EReal.neg_mul, EReal.mul_comm _ ⊤, ← EReal.neg_mul, EReal.neg_top, EReal.mul_comm]
  cases x <;> cases y <;> simp only [Fl.mul] at hn ⊢ <;> try exact absurd rfl hn
  · simp [Fl.IsInf, Fl.val] at h
  · rw [key _ hn]; rfl
  · rw [key _ hn]; exact (flip _).symm
  · rw [key _ hn]; exact EReal.mul_comm _ _
  · simp [Fl.val]
  · simp [Fl.val]
  · rw [key _ hn]; exact (flip _).symm.trans (EReal.mul_comm _ _)
  · simp [Fl.val]
  · simp [Fl.val]

/-- **C94**.  Values that are not NaN are ordered as extended real numbers; NaN is less than nothing and nothing is less
than NaN. -/
theorem fl_lt_iff (x y : Fl A) : x.lt y ↔ x ≠ .nan ∧ y ≠ .nan ∧ x.val < y.val := by
  cases x <;> cases y <;> simp [Fl.lt, Fl.val, EReal.coe_lt_top, EReal.bot_lt_coe]

/-- **C94**.  A quotient of an infinity or by one, other than by zero, that is not NaN is that of the extended real
numbers. -/
theorem fl_div_inf {x y : Fl A} (h : x.IsInf ∨ y.IsInf) (hy : y.val ≠ 0) (hn : x.div y ≠ .nan) :
    (x.div y).val = x.val / y.val := by
  cases x <;> cases y <;> simp only [Fl.div] at hn ⊢ <;> try exact absurd rfl hn
  · simp [Fl.IsInf, Fl.val] at h
  · rw [val_round_zero]; simp [Fl.val]
  · rw [val_round_zero]; simp [Fl.val]
  · rename_i y
    have hy' : y.1 ≠ 0 := by simpa [Fl.val] using hy
    rcases lt_or_gt_of_ne hy' with h | h
    · rw [if_pos h]
      exact (EReal.top_div_of_neg_ne_bot (EReal.coe_neg'.2 h) (EReal.coe_ne_bot _)).symm
    · rw [if_neg h.not_gt]
      exact (EReal.top_div_of_pos_ne_top (EReal.coe_pos.2 h) (EReal.coe_ne_top _)).symm
  · rename_i y
    have hy' : y.1 ≠ 0 := by simpa [Fl.val] using hy
    rcases lt_or_gt_of_ne hy' with h | h
    · rw [if_pos h]
      exact (EReal.bot_div_of_neg_ne_bot (EReal.coe_neg'.2 h) (EReal.coe_ne_bot _)).symm
    · rw [if_neg h.not_gt]
      exact (EReal.bot_div_of_pos_ne_top (EReal.coe_pos.2 h) (EReal.coe_ne_top _)).symm

/-- **C94**.  The rounding of a number: infinite exactly if it overflows, never NaN. -/
theorem fl_round_val (r : ℝ) : (Fl.round A r).val =
    if A.big < A.rnd r then ⊤ else if A.rnd r < -A.big then ⊥ else (A.rnd r : EReal) := by
  unfold Fl.round
  split_ifs <;> rfl

/-! The hypotheses are met: the products and quotients of infinities with two and minus two in any format. -/
example : ∃ x y : Fl A, x.IsInf ∧ y.IsInf ∧ x.mul y ≠ .nan ∧ (x.mul y).val = ⊥ :=
  ⟨.pinf, .ninf, Or.inl rfl, Or.inr rfl, by simp [Fl.mul], rfl⟩

example : ∃ y : Fl A, y.val = -2 ∧ ((Fl.pinf : Fl A).mul y).val = ⊥ ∧ ((Fl.pinf : Fl A).div y).val = ⊥ := by
  have h2 : A.rnd (-2) = -2 := by simpa using A.int (-2) (by norm_num)
  have hb : |(-2 : ℝ)| ≤ A.big := by
    have h1 : A.rnd 2 = 2 := by simpa using A.int 2 (by norm_num)
    have := A.maxComp_le
    have h3 : A.rnd 2 ≤ A.rnd maxCompValue := A.mono (by
      rw [maxCompValue]
      calc (2 : ℝ) ≤ 10 ^ 1 := by norm_num
        _ ≤ 10 ^ 300 := pow_le_pow_right₀ (by norm_num) (by norm_num))
    rw [abs_neg, abs_of_pos two_pos]
    linarith
  refine ⟨.fin ⟨-2, h2, hb⟩, ?_, ?_, ?_⟩
  · rfl
  · have : ¬ (2 : ℝ) < 0 := by norm_num
    simp [Fl.mul, scaleInf, Fl.val, this]
  · simp [Fl.div, Fl.val]

end Pylogit
