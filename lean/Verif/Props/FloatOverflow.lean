import Verif.Props.FloatMnl

/-!
# C94: overflow of utilities

C94 is about finite utilities.  Here are utilities that overflow, from finite data and coefficients.
-/

namespace Pylogit

open Spec

variable {A : FloatFormat} {n k : ℕ} {O : Type} [DecidableEq O]

private lemma added_pinf {l : List (Fl A)} {x : Fl A} (h : AddedUp l x) (hl : .pinf ∈ l) : x = .pinf ∨ x = .nan := by
  induction h with
  | one x => exact .inl (List.mem_singleton.1 hl).symm
  | @add l l' x y _ _ ih ih' =>
    rcases List.mem_append.1 hl with h | h
    · rcases ih h with rfl | rfl <;> cases y <;> simp [Fl.add]
    · rcases ih' h with rfl | rfl <;> cases x <;> simp [Fl.add]
  | perm hp _ ih => exact ih (hp.mem_iff.2 hl)

private lemma added_ninf {l : List (Fl A)} {x : Fl A} (h : AddedUp l x) (hl : .ninf ∈ l) : x = .ninf ∨ x = .nan := by
  induction h with
  | one x => exact .inl (List.mem_singleton.1 hl).symm
  | @add l l' x y _ _ ih ih' =>
    rcases List.mem_append.1 hl with h | h
    · rcases ih h with rfl | rfl <;> cases y <;> simp [Fl.add]
    · rcases ih' h with rfl | rfl <;> cases x <;> simp [Fl.add]
  | perm hp _ ih => exact ih (hp.mem_iff.2 hl)

/-- Not negative, perhaps infinite. -/
private def Up (x : Fl A) : Prop := x = .pinf ∨ ∃ z : A.Num, x = .fin z ∧ 0 ≤ z.1

/-- Not positive, perhaps infinite. -/
private def Down (x : Fl A) : Prop := x = .ninf ∨ ∃ z : A.Num, x = .fin z ∧ z.1 ≤ 0

private lemma rnd_zero' (A : FloatFormat) : A.rnd 0 = 0 := by simpa using A.int 0 (by norm_num)

private lemma big_nonneg' (A : FloatFormat) : 0 ≤ A.big := by
  obtain ⟨x, hx⟩ : ∃ x : A.Num, True := ⟨A.intNum 0 (by norm_num), trivial⟩
  exact (abs_nonneg _).trans x.2.2

private lemma round_up {r : ℝ} (h : 0 ≤ r) : Up (Fl.round A r) := by
  have hr : 0 ≤ A.rnd r := by rw [← rnd_zero' A]; exact A.mono h
  rcases Fl.round_cases A r with ⟨e, -⟩ | ⟨-, e⟩ | ⟨z, e, hz⟩
  · exact .inl e
  · have := big_nonneg' A; linarith
  · exact .inr ⟨z, e, hz ▸ hr⟩

private lemma round_down {r : ℝ} (h : r ≤ 0) : Down (Fl.round A r) := by
  have hr : A.rnd r ≤ 0 := by rw [← rnd_zero' A]; exact A.mono h
  rcases Fl.round_cases A r with ⟨-, e⟩ | ⟨e, -⟩ | ⟨z, e, hz⟩
  · have := big_nonneg' A; linarith
  · exact .inl e
  · exact .inr ⟨z, e, hz ▸ hr⟩

private lemma added_up {l : List (Fl A)} {x : Fl A} (h : AddedUp l x) (hl : ∀ y ∈ l, Up y) : Up x := by
  induction h with
  | one x => exact hl x (by simp)
  | @add l l' x y _ _ ih ih' =>
    rcases ih fun y hy => hl y (List.mem_append_left _ hy) with rfl | ⟨a, rfl, ha⟩ <;>
      rcases ih' fun y hy => hl y (List.mem_append_right _ hy) with rfl | ⟨b, rfl, hb⟩
    · exact .inl rfl
    · exact .inl rfl
    · exact .inl rfl
    · exact round_up (add_nonneg ha hb)
  | perm hp _ ih => exact ih fun y hy => hl y (hp.mem_iff.1 hy)

private lemma added_down {l : List (Fl A)} {x : Fl A} (h : AddedUp l x) (hl : ∀ y ∈ l, Down y) : Down x := by
  induction h with
  | one x => exact hl x (by simp)
  | @add l l' x y _ _ ih ih' =>
    rcases ih fun y hy => hl y (List.mem_append_left _ hy) with rfl | ⟨a, rfl, ha⟩ <;>
      rcases ih' fun y hy => hl y (List.mem_append_right _ hy) with rfl | ⟨b, rfl, hb⟩
    · exact .inl rfl
    · exact .inl rfl
    · exact .inl rfl
    · exact round_down (add_nonpos ha hb)
  | perm hp _ ih => exact ih fun y hy => hl y (hp.mem_iff.1 hy)

/-- **C94** (overflow). If the products of data and coefficients of one row overflow in both directions, the probabilities
of all rows of its observation are NaN, in whatever order the products are added up, although all data and all
coefficients are finite. -/
theorem float_overflow_nan (L : MathLib A) (obs : Fin n → O) (x : Fin n → Fin k → A.Num) (beta : Fin k → A.Num)
    {t : Fin n → Fl A} (ht : ∀ r, DotOf (fun j => .fin (x r j)) (fun j => .fin (beta j)) (t r)) {s : Fin n} {i j : Fin k}
    (hi : A.big < A.rnd ((x s i).1 * (beta i).1)) (hj : A.rnd ((x s j).1 * (beta j).1) < -A.big)
    {r : Fin n} (hr : obs r = obs s) : floatLongProbs L obs t r = .nan := by
  rw [float_probs_nan_iff]
  refine ⟨s, hr.symm, ?_⟩
  have mi : Fl.pinf ∈ List.ofFn fun j => (Fl.fin (x s j)).mul (.fin (beta j)) :=
    List.mem_ofFn.2 ⟨i, dif_pos hi⟩
  have mj : Fl.ninf ∈ List.ofFn fun j => (Fl.fin (x s j)).mul (.fin (beta j)) :=
    List.mem_ofFn.2 ⟨j, (dif_neg (by have := big_nonneg' A; linarith)).trans (dif_pos hj)⟩
  rcases ht s with ⟨e, -⟩ | h
  · rw [e] at mi; cases mi
  · rcases added_pinf h mi with e | e
    · rcases added_ninf h mj with e' | e'
      · rw [e] at e'; cases e'
      · exact e'
    · exact e

/-- **C94** (overflow). If within every row the products of data and coefficients have the same sign, the probabilities
are positive numbers that are at most one, even if products or utilities overflow. -/
theorem float_same_sign_valid (L : MathLib A) (obs : Fin n → O) (x : Fin n → Fin k → A.Num) (beta : Fin k → A.Num)
    {t : Fin n → Fl A} (ht : ∀ r, DotOf (fun j => .fin (x r j)) (fun j => .fin (beta j)) (t r))
    (hs : ∀ r, (∀ j, 0 ≤ (x r j).1 * (beta j).1) ∨ ∀ j, (x r j).1 * (beta j).1 ≤ 0) (r : Fin n) :
    IsProb (floatLongProbs L obs t r) := by
  refine float_probs_valid L obs t r fun s _ => ?_
  rcases ht s with ⟨-, e⟩ | h
  · rw [e]
    rcases round_up (A := A) le_rfl with e | ⟨z, e, -⟩ <;> rw [e] <;> simp
  · rcases hs s with hp | hp
    · rcases added_up h (fun y hy => by
        obtain ⟨j, rfl⟩ := List.mem_ofFn.1 hy
        exact round_up (hp j)) with e | ⟨z, e, -⟩ <;> rw [e] <;> simp
    · rcases added_down h (fun y hy => by
        obtain ⟨j, rfl⟩ := List.mem_ofFn.1 hy
        exact round_down (hp j)) with e | ⟨z, e, -⟩ <;> rw [e] <;> simp

/-! ## Concrete cases in binary64 -/

private lemma overflows : binary64.big < binary64.rnd ((2 : ℝ) ^ (600 : ℤ) * (2 : ℝ) ^ (600 : ℤ)) := by
  have e : (2 : ℝ) ^ (600 : ℤ) * (2 : ℝ) ^ (600 : ℤ) = (2 : ℝ) ^ (1200 : ℤ) := by rw [← zpow_add₀ (by norm_num)]; norm_num
  have h : binary64.rnd ((2 : ℝ) ^ (1200 : ℤ)) = (2 : ℝ) ^ (1200 : ℤ) := Binary64.rnd_of_mem (Binary64.F_pow (by norm_num))
  rw [e, h]
  show Binary64.big < _
  unfold Binary64.big
  have e2 : (2 : ℝ) ^ (1200 : ℤ) = (2 : ℝ) ^ (229 : ℤ) * (2 : ℝ) ^ (971 : ℤ) := by rw [← zpow_add₀ (by norm_num)]; norm_num
  rw [e2]
  exact mul_lt_mul_of_pos_right (by norm_num) (by positivity)

/-- `2^600`. -/
private noncomputable def exHuge : binary64.Num := Binary64.powNum 600 (by norm_num) (by norm_num)

private lemma exHuge_val : exHuge.1 = (2 : ℝ) ^ (600 : ℤ) := rfl

/-- Two columns of `2^600`, with the coefficients `2^600` and `-2^600`. -/
example (L : MathLib binary64) (t : Fin 2 → Fl binary64)
    (ht : ∀ r, DotOf (fun _ : Fin 2 => .fin exHuge) (fun j => .fin (![exHuge, binary64.negNum exHuge] j)) (t r)) (r : Fin 2) :
    floatLongProbs L (fun _ : Fin 2 => ()) t r = .nan :=
  float_overflow_nan L (fun _ => ()) (fun _ _ => exHuge) ![exHuge, binary64.negNum exHuge] ht (s := 0) (i := 0) (j := 1)
    (by simpa [exHuge_val] using overflows) (by
      have := overflows
      have e : (binary64.negNum exHuge).1 = -(2 : ℝ) ^ (600 : ℤ) := rfl
      simp only [exHuge_val, Matrix.cons_val_one, Matrix.cons_val_fin_one, e, mul_neg, binary64.neg]
      linarith) rfl

/-- With the same data and the coefficients `2^600` the utilities are infinite and the probabilities are valid. -/
example (L : MathLib binary64) : ∃ t : Fin 2 → Fl binary64,
    (∀ r, DotOf (fun _ : Fin 2 => .fin exHuge) (fun _ => .fin exHuge) (t r)) ∧ t 0 = .pinf ∧
      ∀ r, IsProb (floatLongProbs L (fun _ : Fin 2 => ()) t r) := by
  have hp : (Fl.fin exHuge : Fl binary64).mul (.fin exHuge) = .pinf := dif_pos overflows
  have ht : ∀ _r : Fin 2, DotOf (fun _ : Fin 2 => Fl.fin exHuge) (fun _ => .fin exHuge) .pinf := fun _ => by
    refine .inr ?_
    have := AddedUp.add (AddedUp.one (Fl.pinf : Fl binary64)) (AddedUp.one .pinf)
    simpa [hp, Fl.add] using this
  refine ⟨fun _ => .pinf, ht, rfl, float_same_sign_valid L _ (fun _ _ => exHuge) (fun _ => exHuge) ht fun r => .inl fun j => ?_⟩
  exact mul_self_nonneg _

end Pylogit
