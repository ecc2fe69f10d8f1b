import Verif.Model.FloatNested
import Verif.Props.FloatOrder

/-!
# C100: nested logit probabilities in floating point arithmetic
-/

namespace Pylogit

open Spec Fl

variable {A : FloatFormat} {n m : ℕ} {O : Type} [DecidableEq O]

/-- Powers of non-negative numbers are non-negative (they may overflow and underflow), where they are defined. -/
def PowNonneg (L : MathLib A) : Prop :=
  ∀ x s : A.Num, 0 ≤ x.1 → (0 < x.1 ∨ 0 < s.1) → AtLeast 0 (L.pow x s)

theorem roundedLib_powNonneg : PowNonneg roundedLib := by
  intro x s hx _
  rcases Fl.round_above (A := binary64) (a := binary64.zero) (r := x.1 ^ s.1) (Real.rpow_nonneg hx _) with
    h | ⟨y, h, -, h0⟩
  · exact Or.inl h
  · exact Or.inr ⟨y, h, h0⟩

/-- Guarding against infinity and zero makes a non-negative value a positive number. -/
theorem guards_pos {x : Fl A} (hx : AtLeast 0 x) : ∃ y : A.Num, x.guardPos.guardZero = .fin y ∧ 0 < y.1 := by
  rcases hx with rfl | ⟨y, rfl, hy⟩
  · have h := A.rnd_maxComp_pos
    have : A.maxC.1 ≠ 0 := by change A.rnd maxCompValue ≠ 0; linarith
    refine ⟨A.maxC, by simp [guardPos, maxComp_eq, guardZero, this], ?_⟩
    change 0 < A.rnd maxCompValue
    linarith
  · by_cases h : y.1 = 0
    · exact ⟨A.minC, by simp [guardPos, guardZero, h, minComp_eq], A.minComp_pos⟩
    · exact ⟨y, by simp [guardPos, guardZero, h], lt_of_le_of_ne hy (Ne.symm h)⟩

theorem guardPos_nonneg {x : Fl A} (hx : AtLeast 0 x) : ∃ y : A.Num, x.guardPos = .fin y ∧ 0 ≤ y.1 := by
  rcases hx with rfl | ⟨y, rfl, hy⟩
  · have h := A.rnd_maxComp_pos
    refine ⟨A.maxC, by simp [guardPos, maxComp_eq], ?_⟩
    change 0 ≤ A.rnd maxCompValue
    linarith
  · exact ⟨y, rfl, hy⟩

theorem div_fin_ne_nan (x : A.Num) {y : A.Num} (hy : y.1 ≠ 0) : (Fl.fin x).div (.fin y) ≠ .nan := by
  simp only [Fl.div, if_neg hy]
  exact round_ne_nan _ _

/-- Hypotheses on the inputs: the utilities of the observation's rows are numbers, the nest coefficients are numbers
greater than zero and at most one. -/
structure NestedInput (lam : Fin m → Fl A) (obs : Fin n → O) (index : Fin n → Fl A) (o : O) : Prop where
  index : ∀ r, obs r = o → IsFinite (index r)
  lam : ∀ k, IsProb (lam k)

variable {L : MathLib A} {lam : Fin m → Fl A} {obs : Fin n → O} {nest : Fin n → Fin m} {index : Fin n → Fl A}
  {o : O}

omit [DecidableEq O] in
theorem floatExpScaled_pos (h : NestedInput lam obs index o) {r : Fin n} (hr : obs r = o) :
    ∃ e : A.Num, floatExpScaled L lam nest index r = .fin e ∧ 0 < e.1 := by
  obtain ⟨v, hv⟩ := h.index r hr
  obtain ⟨l, hl, hl0, -⟩ := h.lam (nest r)
  unfold floatExpScaled floatScaledIndex
  rw [hv, hl, pick_eq]
  refine guards_pos (exp_atLeast L ?_)
  have := div_fin_ne_nan v hl0.ne'
  generalize (Fl.fin v).div (.fin l) = x at *
  cases x with
  | nan => exact absurd rfl this
  | fin x => simp [guardPos, guardNeg]
  | pinf => simp [guardPos, guardNeg, maxComp_eq]
  | ninf => simp [guardPos, guardNeg, maxComp_eq, neg_fin]

theorem floatNestSum_nonneg (h : NestedInput lam obs index o) (k : Fin m) :
    ∃ S : A.Num, floatNestSum L lam obs nest index o k = .fin S ∧ 0 ≤ S.1 ∧
      ((∃ r, obs r = o ∧ nest r = k) → 0 < S.1) := by
  have hpos : ∀ x ∈ ((rowsOfObs obs o).filter fun r => nest r = k).map fun r =>
      (Fl.round A 1).mul ((Fl.round A 1).mul (floatExpScaled L lam nest index r)), AtLeast 0 x := by
    intro x hx
    obtain ⟨r, hr, rfl⟩ := List.mem_map.1 hx
    obtain ⟨e, he, he0⟩ := floatExpScaled_pos (L := L) (nest := nest) h (mem_rowsOfObs.1 (List.mem_filter.1 hr).1)
    rw [Fl.one_mul, Fl.one_mul, he]
    exact Or.inr ⟨e, rfl, he0.le⟩
  obtain ⟨S, hS, hS0⟩ := guardPos_nonneg (sum_nonneg hpos)
  refine ⟨S, hS, hS0, ?_⟩
  rintro ⟨r, hr, hk⟩
  obtain ⟨e, he, he0⟩ := floatExpScaled_pos (L := L) (nest := nest) h hr
  have := sum_atLeast hpos (a := e) ⟨_, List.mem_map.2 ⟨r, List.mem_filter.2 ⟨mem_rowsOfObs.2 hr, by simpa using hk⟩,
    rfl⟩, by rw [Fl.one_mul, Fl.one_mul, he]; exact Or.inr ⟨e, rfl, le_rfl⟩⟩
  rcases this with h1 | ⟨y, h1, hy⟩
  · rw [h1] at hS
    have := A.rnd_maxComp_pos
    rw [show (Fl.pinf : Fl A).guardPos = .fin A.maxC from maxComp_eq] at hS
    rw [← Fl.fin.inj hS]
    change 0 < A.rnd maxCompValue
    linarith
  · rw [h1] at hS
    rw [← Fl.fin.inj hS]
    linarith

theorem floatNestedDenominator_pos (hL : PowNonneg L) (h : NestedInput lam obs index o) :
    ∃ D : A.Num, floatNestedDenominator L lam obs nest index o = .fin D ∧ 0 < D.1 := by
  refine guards_pos (sum_nonneg ?_)
  intro x hx
  obtain ⟨k, -, rfl⟩ := List.mem_map.1 hx
  obtain ⟨S, hS, hS0, -⟩ := floatNestSum_nonneg (L := L) (nest := nest) h k
  obtain ⟨l, hl, hl0, -⟩ := h.lam k
  rw [hS, hl]
  exact hL S l hS0 (Or.inr hl0)

theorem sub_one_fin {l : A.Num} (h0 : 0 < l.1) (h1 : l.1 ≤ 1) :
    ∃ s : A.Num, (Fl.fin l).sub (.round A 1) = .fin s ∧ s.1 = A.rnd (l.1 - 1) ∧ -1 ≤ s.1 ∧ s.1 ≤ 0 := by
  obtain ⟨s, hs, hs', h2, h3⟩ := round_between (A := A) (a := A.negOne) (b := A.zero) (r := l.1 - 1)
    (by change -1 ≤ _; linarith) (by change _ ≤ (0 : ℝ); linarith)
  refine ⟨s, ?_, hs', h2, h3⟩
  rw [Fl.round_one, Fl.sub, neg_fin]
  exact hs

theorem floatNestedNumerator_pos (hL : PowNonneg L) (h : NestedInput lam obs index o) {r : Fin n}
    (hr : obs r = o) : ∃ N : A.Num, floatNestedNumerator L lam obs nest index r = .fin N ∧ 0 < N.1 := by
  subst hr
  obtain ⟨e, he, he0⟩ := floatExpScaled_pos (L := L) (nest := nest) h (r := r) rfl
  obtain ⟨S, hS, -, hS0⟩ := floatNestSum_nonneg (L := L) (nest := nest) h (nest r)
  have hS0 := hS0 ⟨r, rfl, rfl⟩
  obtain ⟨l, hl, hl0, hl1⟩ := h.lam (nest r)
  obtain ⟨s, hs, -⟩ := sub_one_fin hl0 hl1
  refine guards_pos ?_
  rw [floatLongSum, pick_eq, pick_eq, pick_eq, he, hS, hl, hs]
  rcases hL S s hS0.le (Or.inl hS0) with h1 | ⟨y, h1, hy⟩
  · left
    change Fl.mul _ (L.pow S s) = _
    rw [h1]
    simp [Fl.mul, scaleInf, he0, he0.ne']
  · change AtLeast 0 (Fl.mul _ (L.pow S s))
    rw [h1]
    rcases round_above (A := A) (a := A.zero) (r := e.1 * y.1) (mul_nonneg he0.le hy) with h2 | ⟨z, h2, -, hz⟩
    · exact Or.inl h2
    · exact Or.inr ⟨z, h2, hz⟩

/-- **C100**.  A nested logit probability is never NaN, zero or negative: it is a positive number, or infinite. -/
theorem float_nested_positive (hL : PowNonneg L) (h : NestedInput lam obs index o) {r : Fin n}
    (hr : obs r = o) :
    floatNestedProbs L lam obs nest index r = .pinf ∨ IsNum (floatNestedProbs L lam obs nest index r) (0 < ·) := by
  obtain ⟨N, hN, hN0⟩ := floatNestedNumerator_pos (nest := nest) hL h hr
  obtain ⟨D, hD, hD0⟩ := floatNestedDenominator_pos (nest := nest) hL h
  unfold floatNestedProbs
  rw [hN, hr, hD, pick_eq]
  simp only [Fl.div, if_neg hD0.ne']
  rcases round_above (A := A) (a := A.zero) (r := N.1 / D.1) (div_pos hN0 hD0).le with h2 | ⟨z, h2, -, hz⟩
  · left; rw [h2]; rfl
  · right
    rw [h2]
    by_cases hz0 : z.1 = 0
    · exact ⟨A.minC, by simp [guardZero, hz0, minComp_eq], A.minComp_pos⟩
    · exact ⟨z, by simp [guardZero, hz0], lt_of_le_of_ne hz (Ne.symm hz0)⟩

/-- **C100**.  The nest coefficients computed from the parameters are positive and at most one, whatever the
parameters are (unless they are NaN). -/
theorem float_naturalize (raw : Fl A) (h : raw ≠ .nan) : IsProb (floatNaturalize L raw) := by
  have h1 : (Fl.round A (-1)).mul raw ≠ .nan := by
    cases raw with
    | nan => exact absurd rfl h
    | fin x => rw [negOne_mul_fin]; simp
    | pinf =>
      have : A.negOne.1 = -1 := rfl
      simp [Fl.mul, scaleInf, this]
      split_ifs <;> simp
    | ninf =>
      have : A.negOne.1 = -1 := rfl
      simp [Fl.mul, scaleInf, this]
  obtain ⟨e, he, he0⟩ := guardPos_nonneg (exp_atLeast L h1)
  obtain ⟨x, hx, hx1⟩ := one_add_fin (A := A) (e := e) he0
  unfold floatNaturalize
  rw [he, hx, Fl.round_one]
  have hx1 : 1 ≤ x.1 := hx1
  obtain ⟨y, hy, hy0, hy1⟩ := div_spec (x := A.one) (by change (0 : ℝ) < 1; norm_num) (s := .fin x)
    (Or.inr ⟨x, rfl, hx1⟩)
  rw [hy]
  by_cases hz : y.1 = 0
  · exact ⟨A.minC, by simp [guardZero, hz, minComp_eq], A.minComp_pos, A.rnd_minComp_le⟩
  · exact ⟨y, by simp [guardZero, hz], lt_of_le_of_ne hy0 (Ne.symm hz), hy1⟩

/-- **C100**.  The probability of an alternative given its nest is a positive number of at most one, unless the sum
of the nest overflows; then the reported sum is `1e300`. -/
theorem float_prob_given_nest (h : NestedInput lam obs index o) {r : Fin n} (hr : obs r = o) :
    IsProb (floatProbGivenNest L lam obs nest index r) ∨
      floatNestSum L lam obs nest index o (nest r) = .maxComp A := by
  have hpos : ∀ x ∈ ((rowsOfObs obs o).filter fun s => nest s = nest r).map fun r =>
      (Fl.round A 1).mul ((Fl.round A 1).mul (floatExpScaled L lam nest index r)), AtLeast 0 x := by
    intro x hx
    obtain ⟨s, hs, rfl⟩ := List.mem_map.1 hx
    obtain ⟨e, he, he0⟩ := floatExpScaled_pos (L := L) (nest := nest) h (mem_rowsOfObs.1 (List.mem_filter.1 hs).1)
    rw [Fl.one_mul, Fl.one_mul, he]
    exact Or.inr ⟨e, rfl, he0.le⟩
  obtain ⟨e, he, he0⟩ := floatExpScaled_pos (L := L) (nest := nest) h hr
  have := sum_atLeast hpos (a := e) ⟨_, List.mem_map.2 ⟨r, List.mem_filter.2 ⟨mem_rowsOfObs.2 hr, by simp⟩,
    rfl⟩, by rw [Fl.one_mul, Fl.one_mul, he]; exact Or.inr ⟨e, rfl, le_rfl⟩⟩
  rcases this with h1 | ⟨S, h1, hS⟩
  · right
    unfold floatNestSum
    rw [h1]
    rfl
  · left
    have h2 : floatNestSum L lam obs nest index o (nest r) = .fin S := by
      unfold floatNestSum
      rw [h1]
      rfl
    unfold floatProbGivenNest floatLongSum
    rw [he, hr, h2, pick_eq, pick_eq]
    obtain ⟨y, hy, hy0, hy1⟩ := div_spec he0 (s := .fin S) (Or.inr ⟨S, rfl, hS⟩)
    rw [hy]
    by_cases hz : y.1 = 0
    · exact ⟨A.minC, by simp [guardZero, hz, minComp_eq], A.minComp_pos, A.rnd_minComp_le⟩
    · exact ⟨y, by simp [guardZero, hz], lt_of_le_of_ne hy0 (Ne.symm hz), hy1⟩

/-! ## IEEE 754 binary64 -/

/-- An implementation of powers of positive numbers with relative errors of at most `2^-50` before the final
rounding (C libraries are more accurate). -/
structure PowAccurate (L : MathLib binary64) : Prop where
  zero : ∀ x s : binary64.Num, x.1 = 0 → 0 < s.1 → L.pow x s = .fin binary64.zero
  pos : ∀ x s : binary64.Num, 0 < x.1 → ∃ δ : ℝ, |δ| ≤ (2 : ℝ) ^ (-50 : ℤ) ∧
    L.pow x s = .round binary64 (x.1 ^ s.1 * (1 + δ))

/-- The range of the exponential function between -600 and 600. -/
def ExpRange (L : MathLib binary64) : Prop :=
  ∀ x : binary64.Num, |x.1| ≤ 600 → ∃ y : binary64.Num, L.exp x = .fin y ∧
    (2 : ℝ) ^ (-870 : ℤ) ≤ y.1 ∧ y.1 ≤ (2 : ℝ) ^ (870 : ℤ)

theorem roundedLib_powAccurate : PowAccurate roundedLib where
  zero x s hx hs := by
    change Fl.round binary64 (x.1 ^ s.1) = _
    rw [hx, Real.zero_rpow hs.ne', Fl.round_zero]
  pos x s _ := ⟨0, by norm_num, by change Fl.round binary64 (x.1 ^ s.1) = _; simp⟩

theorem exp_le_zpow {x : ℝ} {k : ℤ} (h : x ≤ k * Real.log 2) : Real.exp x ≤ (2 : ℝ) ^ k := by
  refine (Real.exp_le_exp.2 h).trans_eq ?_
  rw [← Real.log_zpow, Real.exp_log (zpow_pos (by norm_num) _)]

theorem zpow_le_exp {x : ℝ} {k : ℤ} (h : k * Real.log 2 ≤ x) : (2 : ℝ) ^ k ≤ Real.exp x := by
  refine le_of_eq_of_le ?_ (Real.exp_le_exp.2 h)
  rw [← Real.log_zpow, Real.exp_log (zpow_pos (by norm_num) _)]

theorem roundedLib_expRange : ExpRange roundedLib := by
  intro x hx
  rw [abs_le] at hx
  have h2 := Real.log_two_gt_d9
  obtain ⟨y, hy, -, h0, h1⟩ := Fl.round_between (a := Binary64.powNum (-870) (by norm_num) (by norm_num))
    (b := Binary64.powNum 870 (by norm_num) (by norm_num)) (r := Real.exp x.1)
    (zpow_le_exp (by push_cast; linarith [hx.1])) (exp_le_zpow (by push_cast; linarith [hx.2]))
  exact ⟨y, hy, h0, h1⟩

theorem PowAccurate.nonneg {L : MathLib binary64} (hL : PowAccurate L) : PowNonneg L := by
  intro x s hx hs
  rcases hx.eq_or_lt with h | h
  · rw [hL.zero x s h.symm (by rcases hs with h' | h'; linarith; exact h')]
    exact Or.inr ⟨_, rfl, le_rfl⟩
  · obtain ⟨δ, hδ, e⟩ := hL.pos x s h
    rw [e]
    have h1 : -1 ≤ δ := (neg_le_neg (hδ.trans (by norm_num))).trans (neg_abs_le δ)
    rcases round_above (A := binary64) (a := binary64.zero) (r := x.1 ^ s.1 * (1 + δ))
      (mul_nonneg (Real.rpow_nonneg hx _) (by linarith)) with h2 | ⟨z, h2, -, hz⟩
    · exact Or.inl h2
    · exact Or.inr ⟨z, h2, hz⟩

/-- Rounding a number that is not too small or too large has a small relative error. -/
theorem round_mid {y : ℝ} (h1 : (2 : ℝ) ^ (-1000 : ℤ) ≤ y) (h2 : y ≤ (2 : ℝ) ^ (1000 : ℤ)) :
    ∃ z : binary64.Num, Fl.round binary64 y = .fin z ∧ |z.1 - y| ≤ 3e-16 * y := by
  obtain ⟨z, hz, hz', -⟩ := Fl.round_between (a := Binary64.powNum (-1000) (by norm_num) (by norm_num))
    (b := Binary64.powNum 1000 (by norm_num) (by norm_num)) h1 h2
  refine ⟨z, hz, ?_⟩
  have h0 : 0 ≤ y := (zpow_pos (by norm_num : (0 : ℝ) < 2) _).le.trans h1
  have := Binary64.rnd_error h0
  rw [hz']
  refine this.trans ?_
  have e : (2 : ℝ) ^ (-1075 : ℤ) ≤ 2 ^ (-53 : ℤ) * y := by
    calc (2 : ℝ) ^ (-1075 : ℤ) ≤ 2 ^ (-53 : ℤ) * 2 ^ (-1000 : ℤ) := by
          rw [← zpow_add₀ (by norm_num)]; exact zpow_le_zpow_right₀ (by norm_num) (by norm_num)
      _ ≤ _ := mul_le_mul_of_nonneg_left h1 (by positivity)
  have hu : (2 : ℝ) ^ (-53 : ℤ) ≤ 1.2e-16 := by norm_num
  generalize (2 : ℝ) ^ (-1075 : ℤ) = w at *
  generalize (2 : ℝ) ^ (-53 : ℤ) = u at *
  nlinarith

theorem abs_log_le {S : ℝ} (h1 : (2 : ℝ) ^ (-882 : ℤ) ≤ S) (h2 : S ≤ (2 : ℝ) ^ (882 : ℤ)) :
    |Real.log S| ≤ 882 * Real.log 2 := by
  have h0 : 0 < S := (zpow_pos (by norm_num : (0 : ℝ) < 2) _).trans_le h1
  have a := Real.log_le_log (zpow_pos (by norm_num) _) h1
  have b := Real.log_le_log h0 h2
  rw [Real.log_zpow] at a b
  push_cast at a b
  rw [abs_le]
  constructor <;> linarith

theorem rpow_range {S s : ℝ} (h1 : (2 : ℝ) ^ (-882 : ℤ) ≤ S) (h2 : S ≤ (2 : ℝ) ^ (882 : ℤ)) (hs : |s| ≤ 1) :
    (2 : ℝ) ^ (-882 : ℤ) ≤ S ^ s ∧ S ^ s ≤ (2 : ℝ) ^ (882 : ℤ) := by
  have h0 : 0 < S := (zpow_pos (by norm_num : (0 : ℝ) < 2) _).trans_le h1
  have h := abs_log_le h1 h2
  have h3 : |Real.log S * s| ≤ 882 * Real.log 2 := by
    rw [abs_mul]
    calc |Real.log S| * |s| ≤ 882 * Real.log 2 * 1 := mul_le_mul h hs (abs_nonneg _) ((abs_nonneg _).trans h)
      _ = _ := _root_.mul_one _
  rw [abs_le] at h3
  rw [Real.rpow_def_of_pos h0]
  exact ⟨zpow_le_exp (by push_cast; linarith [h3.1]), exp_le_zpow (by push_cast; linarith [h3.2])⟩

/-- Powers of numbers that are not too large or small, with exponents between -1 and 1. -/
theorem PowAccurate.mid {L : MathLib binary64} (hL : PowAccurate L) {S s : binary64.Num}
    (h1 : (2 : ℝ) ^ (-882 : ℤ) ≤ S.1) (h2 : S.1 ≤ (2 : ℝ) ^ (882 : ℤ)) (hs : |s.1| ≤ 1) :
    ∃ P : binary64.Num, L.pow S s = .fin P ∧ |P.1 - S.1 ^ s.1| ≤ 2e-15 * S.1 ^ s.1 := by
  have h0 : 0 < S.1 := (zpow_pos (by norm_num : (0 : ℝ) < 2) _).trans_le h1
  obtain ⟨r1, r2⟩ := rpow_range h1 h2 hs
  obtain ⟨δ, hδ, e⟩ := hL.pos S s h0
  have hδ' : |δ| ≤ 1e-15 := hδ.trans (by norm_num)
  rw [abs_le] at hδ'
  have hx := Real.rpow_pos_of_pos h0 s.1
  have e1 : (2 : ℝ) ^ (-1000 : ℤ) * 2 ≤ (2 : ℝ) ^ (-882 : ℤ) := by
    rw [← zpow_add_one₀ (by norm_num)]; exact zpow_le_zpow_right₀ (by norm_num) (by norm_num)
  have e2 : (2 : ℝ) ^ (882 : ℤ) * 2 ≤ (2 : ℝ) ^ (1000 : ℤ) := by
    rw [← zpow_add_one₀ (by norm_num)]; exact zpow_le_zpow_right₀ (by norm_num) (by norm_num)
  generalize S.1 ^ s.1 = x at *
  obtain ⟨z, hz, hz'⟩ := round_mid (y := x * (1 + δ)) (by
      refine le_trans ?_ (mul_le_mul_of_nonneg_left (by linarith : (1 : ℝ) / 2 ≤ 1 + δ) hx.le)
      linarith) (by
      refine (mul_le_mul_of_nonneg_left (by linarith : (1 + δ : ℝ) ≤ 2) hx.le).trans ?_
      exact (mul_le_mul_of_nonneg_right r2 (by norm_num)).trans e2)
  refine ⟨z, by rw [e, hz], ?_⟩
  rw [abs_le] at hz' ⊢
  constructor <;> nlinarith [hz'.1, hz'.2, mul_le_mul_of_nonneg_left hδ'.1 hx.le, mul_le_mul_of_nonneg_left hδ'.2 hx.le]

/-- Powers with slightly different exponents. -/
theorem rpow_near {S s t : ℝ} (h1 : (2 : ℝ) ^ (-882 : ℤ) ≤ S) (h2 : S ≤ (2 : ℝ) ^ (882 : ℤ))
    (hst : |s - t| ≤ 3e-16) : |S ^ s - S ^ t| ≤ 5e-13 * S ^ t := by
  have h0 : 0 < S := (zpow_pos (by norm_num : (0 : ℝ) < 2) _).trans_le h1
  have h := abs_log_le h1 h2
  have hl := Real.log_two_lt_d9
  have h3 : |Real.log S * (s - t)| ≤ 2e-13 := by
    rw [abs_mul]
    calc |Real.log S| * |s - t| ≤ 612 * 3e-16 := mul_le_mul (by linarith) hst (abs_nonneg _) (by norm_num)
      _ ≤ _ := by norm_num
  have h4 : S ^ s = S ^ t * Real.exp (Real.log S * (s - t)) := by
    rw [← Real.rpow_def_of_pos h0, ← Real.rpow_add h0]; congr 1; ring
  have h5 := Real.abs_exp_sub_one_le (x := Real.log S * (s - t)) (h3.trans (by norm_num))
  have hx := Real.rpow_pos_of_pos h0 t
  rw [h4, show S ^ t * Real.exp (Real.log S * (s - t)) - S ^ t =
    S ^ t * (Real.exp (Real.log S * (s - t)) - 1) by ring, abs_mul, abs_of_pos hx, mul_comm]
  exact mul_le_mul_of_nonneg_right (h5.trans (by linarith)) hx.le

/-- The computed sum of at most 1000 numbers. -/
theorem sum_near (l : List binary64.Num) (hlen : l.length ≤ 1000)
    (hl : ∀ x ∈ l, 0 ≤ x.1 ∧ x.1 ≤ (2 : ℝ) ^ (1010 : ℤ)) :
    ∃ S : binary64.Num, Fl.sum (l.map Fl.fin) = .fin S ∧
      (1 - 2e-13) * (l.map fun x : binary64.Num => x.1).sum ≤ S.1 ∧
      S.1 ≤ (1 + 2e-13) * (l.map fun x : binary64.Num => x.1).sum := by
  obtain ⟨S, hS⟩ := foldl_finite l 0 (by omega) hl binary64.zero le_rfl (by simp [FloatFormat.zero])
  refine ⟨S, by rw [Fl.sum, Fl.round_zero]; exact hS, ?_⟩
  obtain ⟨h1, h2⟩ := foldl_accurate binary64_accurate l (fun x hx => (hl x hx).1) binary64.zero le_rfl hS
  rw [show binary64.zero.1 = 0 from rfl, _root_.zero_add] at h1 h2
  have h0 : 0 ≤ (l.map fun x : binary64.Num => x.1).sum := List.sum_nonneg fun y hy => by
    obtain ⟨z, hz, rfl⟩ := List.mem_map.1 hy
    exact (hl z hz).1
  generalize (l.map fun x : binary64.Num => x.1).sum = T at *
  generalize hk : l.length = k at *
  have hkr : (k : ℝ) ≤ 1000 := by exact_mod_cast hlen
  have hk0 : (0 : ℝ) ≤ k := Nat.cast_nonneg k
  have hu : (2 : ℝ) ^ (-53 : ℤ) ≤ 1.2e-16 := by norm_num
  have hu0 : (0 : ℝ) < (2 : ℝ) ^ (-53 : ℤ) := zpow_pos (by norm_num) _
  generalize (2 : ℝ) ^ (-53 : ℤ) = u at *
  have hku : k * u ≤ 1.2e-13 := by nlinarith
  have hber : 1 - k * u ≤ (1 - u) ^ k := by
    have := one_add_mul_le_pow (a := -u) (by linarith) k
    rw [← sub_eq_add_neg] at this
    linarith
  have hup : (1 + u) ^ k ≤ 1 + 2e-13 := by
    have h3 : (1 - k * u) * (1 + u) ^ k ≤ 1 :=
      calc (1 - k * u) * (1 + u) ^ k ≤ (1 - u) ^ k * (1 + u) ^ k :=
          mul_le_mul_of_nonneg_right hber (pow_nonneg (by linarith) _)
        _ = (1 - u ^ 2) ^ k := by rw [← mul_pow]; ring_nf
        _ ≤ 1 := pow_le_one₀ (by nlinarith) (by nlinarith)
    have h4 : 0 ≤ (1 + u) ^ k := pow_nonneg (by linarith) _
    nlinarith
  exact ⟨(mul_le_mul_of_nonneg_right (by linarith) h0).trans h1, h2.trans (mul_le_mul_of_nonneg_right hup h0)⟩

theorem minComp_le_zpow : binary64.rnd minCompValue ≤ (2 : ℝ) ^ (-990 : ℤ) := by
  rw [← Binary64.rnd_of_mem (Binary64.F_pow (e := -990) (by norm_num))]
  refine Binary64.rnd_mono ?_
  have e : (2 : ℝ) ^ (-990 : ℤ) = ((2 ^ 33) ^ 30)⁻¹ := by
    rw [zpow_neg, ← pow_mul, ← zpow_natCast]; norm_num
  have e' : minCompValue = ((10 ^ 10) ^ 30)⁻¹ := by
    rw [minCompValue, ← pow_mul]
  rw [e, e']
  exact inv_anti₀ (by positivity) (pow_le_pow_left₀ (by norm_num) (by norm_num) _)

/-- A guarded rounding: the relative error of rounding, and an absolute error from underflow and its guard. -/
theorem guarded_round {y : ℝ} (h0 : 0 ≤ y) (h2 : y ≤ (2 : ℝ) ^ (1023 : ℤ)) :
    ∃ z : binary64.Num, (Fl.round binary64 y).guardPos.guardZero = .fin z ∧
      (Fl.round binary64 y).guardZero = .fin z ∧ 0 < z.1 ∧
      (1 - 2e-16) * y - (2 : ℝ) ^ (-989 : ℤ) ≤ z.1 ∧ z.1 ≤ (1 + 2e-16) * y + (2 : ℝ) ^ (-989 : ℤ) := by
  obtain ⟨z, hz, hz', hz0, -⟩ := Fl.round_between (A := binary64) (a := binary64.zero)
    (b := Binary64.powNum 1023 (by norm_num) (by norm_num)) h0 h2
  have hz0 : 0 ≤ z.1 := hz0
  have herr := abs_le.1 (Binary64.rnd_error h0)
  rw [show Binary64.rnd y = z.1 from hz'.symm] at herr
  have e1 : (2 : ℝ) ^ (-1075 : ℤ) ≤ (2 : ℝ) ^ (-990 : ℤ) := zpow_le_zpow_right₀ (by norm_num) (by norm_num)
  have e2 : (2 : ℝ) ^ (-989 : ℤ) = 2 ^ (-990 : ℤ) * 2 := by
    rw [← zpow_add_one₀ (by norm_num)]; norm_num
  have hmin := minComp_le_zpow
  have hu : (2 : ℝ) ^ (-53 : ℤ) ≤ 2e-16 := by norm_num
  have hp : (0 : ℝ) < (2 : ℝ) ^ (-990 : ℤ) := zpow_pos (by norm_num) _
  have hpos := binary64.minComp_pos
  have hm : binary64.minC.1 = binary64.rnd minCompValue := rfl
  rw [hz]
  by_cases h : z.1 = 0
  · refine ⟨binary64.minC, by simp [guardPos, guardZero, h, minComp_eq], by simp [guardZero, h, minComp_eq],
      hpos, ?_, ?_⟩
    · rw [hm, e2]
      rw [h] at herr
      generalize (2 : ℝ) ^ (-1075 : ℤ) = w at *
      generalize (2 : ℝ) ^ (-990 : ℤ) = w' at *
      generalize (2 : ℝ) ^ (-53 : ℤ) = u at *
      nlinarith [herr.1]
    · rw [hm, e2]
      generalize (2 : ℝ) ^ (-990 : ℤ) = w' at *
      nlinarith
  · refine ⟨z, by simp [guardPos, guardZero, h], by simp [guardZero, h], lt_of_le_of_ne hz0 (Ne.symm h), ?_, ?_⟩
    · rw [e2]
      generalize (2 : ℝ) ^ (-1075 : ℤ) = w at *
      generalize (2 : ℝ) ^ (-990 : ℤ) = w' at *
      generalize (2 : ℝ) ^ (-53 : ℤ) = u at *
      nlinarith [herr.1]
    · rw [e2]
      generalize (2 : ℝ) ^ (-1075 : ℤ) = w at *
      generalize (2 : ℝ) ^ (-990 : ℤ) = w' at *
      generalize (2 : ℝ) ^ (-53 : ℤ) = u at *
      nlinarith [herr.2]

/-- The real numbers behind a probability: errors of the numerator, the denominator and the quotient. -/
theorem nested_error {e S P Q D N p : ℝ} (he : 0 < e) (hS : 0 < S) (hP : 0 < P) (hD : (2 : ℝ) ^ (-884 : ℤ) ≤ D)
    (hQ : |Q - P / S| ≤ 6e-13 * (P / S))
    (hN1 : (1 - 2e-16) * (e * Q) - (2 : ℝ) ^ (-989 : ℤ) ≤ N)
    (hN2 : N ≤ (1 + 2e-16) * (e * Q) + (2 : ℝ) ^ (-989 : ℤ))
    (hp1 : (1 - 2e-16) * (N / D) - (2 : ℝ) ^ (-989 : ℤ) ≤ p)
    (hp2 : p ≤ (1 + 2e-16) * (N / D) + (2 : ℝ) ^ (-989 : ℤ)) :
    (1 - 2e-12) * (e / S * (P / D)) - 1e-30 ≤ p ∧ p ≤ (1 + 2e-12) * (e / S * (P / D)) + 1e-30 := by
  have hw : (2 : ℝ) ^ (-989 : ℤ) ≤ 2 ^ (-105 : ℤ) * D := by
    calc (2 : ℝ) ^ (-989 : ℤ) = 2 ^ (-105 : ℤ) * 2 ^ (-884 : ℤ) := by rw [← zpow_add₀ (by norm_num)]; norm_num
      _ ≤ _ := mul_le_mul_of_nonneg_left hD (by positivity)
  have hD0 : 0 < D := (zpow_pos (by norm_num : (0 : ℝ) < 2) _).trans_le hD
  have h105 : (2 : ℝ) ^ (-105 : ℤ) ≤ 1e-31 := by norm_num
  have hw2 : (2 : ℝ) ^ (-989 : ℤ) ≤ 1e-31 :=
    (zpow_le_zpow_right₀ (by norm_num) (by norm_num : (-989 : ℤ) ≤ -105)).trans h105
  have hw0 : (0 : ℝ) < (2 : ℝ) ^ (-989 : ℤ) := zpow_pos (by norm_num) _
  have hwD : (2 : ℝ) ^ (-989 : ℤ) ≤ 1e-31 * D := hw.trans (mul_le_mul_of_nonneg_right h105 hD0.le)
  clear hw hD h105
  generalize (2 : ℝ) ^ (-989 : ℤ) = w at *
  have hT : 0 < e / S * (P / D) := by positivity
  have e1 : e * (P / S) = e / S * (P / D) * D := by field_simp
  have hR : 0 < P / S := by positivity
  rw [abs_le] at hQ
  have q1 : (1 - 6e-13) * (e / S * (P / D) * D) ≤ e * Q := by
    rw [← e1]; nlinarith [mul_le_mul_of_nonneg_left hQ.1 he.le]
  have q2 : e * Q ≤ (1 + 6e-13) * (e / S * (P / D) * D) := by
    rw [← e1]; nlinarith [mul_le_mul_of_nonneg_left hQ.2 he.le]
  generalize e / S * (P / D) = T at *
  have n1 : (1 - 1e-12) * T - 1e-31 ≤ N / D := by
    rw [le_div_iff₀ hD0]
    have : 0 < T * D := by positivity
    nlinarith
  have n2 : N / D ≤ (1 + 1e-12) * T + 1e-31 := by
    rw [div_le_iff₀ hD0]
    have : 0 < T * D := by positivity
    nlinarith
  constructor <;> nlinarith

theorem zpow_lit (a b : ℤ) (h : a ≤ b) : (2 : ℝ) ^ a ≤ 2 ^ b := zpow_le_zpow_right₀ (by norm_num) h

section Sum

variable {L : MathLib binary64} {lam : Fin m → Fl binary64} {index : Fin n → Fl binary64}

omit [DecidableEq O] in
theorem expScaled_mid (hE : ExpRange L) (h : NestedInput lam obs index o)
    (hb : ∀ r (v l : binary64.Num), obs r = o → index r = .fin v → lam (nest r) = .fin l → |v.1| ≤ 600 * l.1)
    {r : Fin n} (hr : obs r = o) :
    ∃ e : binary64.Num, floatExpScaled L lam nest index r = .fin e ∧
      (2 : ℝ) ^ (-870 : ℤ) ≤ e.1 ∧ e.1 ≤ (2 : ℝ) ^ (870 : ℤ) := by
  obtain ⟨v, hv⟩ := h.index r hr
  obtain ⟨l, hl, hl0, -⟩ := h.lam (nest r)
  have hvl := hb r v l hr hv hl
  have hq : |v.1 / l.1| ≤ 600 := by
    rw [abs_div, abs_of_pos hl0, div_le_iff₀ hl0]; exact hvl
  rw [abs_le] at hq
  obtain ⟨x, hx, -, hx1, hx2⟩ := Fl.round_between (A := binary64) (a := binary64.intNum (-600) (by norm_num))
    (b := binary64.intNum 600 (by norm_num)) (r := v.1 / l.1) (by simpa [FloatFormat.intNum] using hq.1)
    (by simpa [FloatFormat.intNum] using hq.2)
  have hx1 : -600 ≤ x.1 := by simpa [FloatFormat.intNum] using hx1
  have hx2 : x.1 ≤ 600 := by simpa [FloatFormat.intNum] using hx2
  obtain ⟨e, he, he1, he2⟩ := hE x (abs_le.2 ⟨hx1, hx2⟩)
  refine ⟨e, ?_, he1, he2⟩
  have he0 : e.1 ≠ 0 := ((zpow_pos (by norm_num : (0 : ℝ) < 2) _).trans_le he1).ne'
  have hd : (Fl.fin v).div (.fin l) = .fin x := by simp only [Fl.div, if_neg hl0.ne']; exact hx
  unfold floatExpScaled floatScaledIndex
  rw [hv, hl, pick_eq, hd]
  simp only [guardPos, guardNeg, Fl.exp, he, guardZero, if_neg he0]

theorem sum_nestRows (p : Fin n → ℝ) (k : Fin m) :
    (((rowsOfObs obs o).filter fun r => nest r = k).map p).sum = ∑ r with obs r = o ∧ nest r = k, p r := by
  rw [← Finset.filter_filter, Finset.sum_filter, ← sum_rowsOfObs]
  induction rowsOfObs obs o with
  | nil => rfl
  | cons r l ih =>
    rw [List.filter_cons]
    by_cases h : nest r = k <;> simp [h, ih]

theorem nestSum_mid {e : Fin n → binary64.Num} (he : ∀ r, obs r = o →
      floatExpScaled L lam nest index r = .fin (e r) ∧ (2 : ℝ) ^ (-870 : ℤ) ≤ (e r).1 ∧
      (e r).1 ≤ (2 : ℝ) ^ (870 : ℤ)) (hn : Finset.card {r | obs r = o} ≤ 1000) (k : Fin m) :
    ∃ S : binary64.Num, floatNestSum L lam obs nest index o k = .fin S ∧
      (1 - 2e-13) * (∑ r with obs r = o ∧ nest r = k, (e r).1) ≤ S.1 ∧
      S.1 ≤ (1 + 2e-13) * ∑ r with obs r = o ∧ nest r = k, (e r).1 := by
  have hlen : (((rowsOfObs obs o).filter fun r => nest r = k).map e).length ≤ 1000 := by
    rw [List.length_map]
    refine (List.length_filter_le _ _).trans ?_
    rw [length_rowsOfObs]; exact hn
  obtain ⟨S, hS, h1, h2⟩ := sum_near _ hlen (by
    intro x hx
    obtain ⟨r, hr, rfl⟩ := List.mem_map.1 hx
    obtain ⟨-, a, b⟩ := he r (mem_rowsOfObs.1 (List.mem_filter.1 hr).1)
    exact ⟨(zpow_pos (by norm_num : (0 : ℝ) < 2) _).le.trans a, b.trans (zpow_lit _ _ (by norm_num))⟩)
  rw [List.map_map, show ((fun x : binary64.Num => x.1) ∘ e : Fin n → ℝ) = fun r => (e r).1 from rfl,
    sum_nestRows] at h1 h2
  refine ⟨S, ?_, h1, h2⟩
  unfold floatNestSum
  have : (((rowsOfObs obs o).filter fun r => nest r = k).map fun r =>
      (Fl.round binary64 1).mul ((Fl.round binary64 1).mul (floatExpScaled L lam nest index r))) =
      (((rowsOfObs obs o).filter fun r => nest r = k).map e).map Fl.fin := by
    rw [List.map_map]
    refine List.map_congr_left fun r hr => ?_
    rw [Fl.one_mul, Fl.one_mul, (he r (mem_rowsOfObs.1 (List.mem_filter.1 hr).1)).1]
    rfl
  rw [this, hS]
  rfl

/-- The rounded exponent `lambda - 1`. -/
theorem exponent_near {l : binary64.Num} (h0 : 0 < l.1) (h1 : l.1 ≤ 1) :
    ∃ s : binary64.Num, (Fl.fin l).sub (.round binary64 1) = .fin s ∧ |s.1| ≤ 1 ∧ |s.1 - (l.1 - 1)| ≤ 3e-16 := by
  obtain ⟨s, hs, hs', h2, h3⟩ := sub_one_fin h0 h1
  refine ⟨s, hs, abs_le.2 ⟨h2, by linarith⟩, ?_⟩
  have e : binary64.rnd (l.1 - 1) = -Binary64.rnd (1 - l.1) := by
    rw [show l.1 - 1 = -(1 - l.1) by ring, binary64.neg]; rfl
  rw [hs', e]
  have := Binary64.rnd_error (x := 1 - l.1) (by linarith)
  have hw : (2 : ℝ) ^ (-1075 : ℤ) ≤ 1e-16 := (zpow_lit _ (-60) (by norm_num)).trans (by norm_num)
  have hu : (2 : ℝ) ^ (-53 : ℤ) ≤ 1.5e-16 := by norm_num
  have hu0 : (0 : ℝ) ≤ (2 : ℝ) ^ (-53 : ℤ) := by positivity
  rw [show -Binary64.rnd (1 - l.1) - (l.1 - 1) = -(Binary64.rnd (1 - l.1) - (1 - l.1)) by ring, abs_neg]
  refine this.trans ?_
  generalize (2 : ℝ) ^ (-1075 : ℤ) = w at *
  generalize (2 : ℝ) ^ (-53 : ℤ) = u at *
  nlinarith

/-- A nest with rows: the sum of its exponentials and the powers of the sum. -/
theorem nest_mid (hL : PowAccurate L) {l S : binary64.Num} (hl0 : 0 < l.1) (hl1 : l.1 ≤ 1)
    (h1 : (2 : ℝ) ^ (-882 : ℤ) ≤ S.1) (h2 : S.1 ≤ (2 : ℝ) ^ (882 : ℤ)) :
    ∃ P s Q : binary64.Num, L.pow S l = .fin P ∧ (2 : ℝ) ^ (-883 : ℤ) ≤ P.1 ∧ P.1 ≤ (2 : ℝ) ^ (883 : ℤ) ∧
      (Fl.fin l).sub (.round binary64 1) = .fin s ∧ L.pow S s = .fin Q ∧
      |Q.1 - P.1 / S.1| ≤ 6e-13 * (P.1 / S.1) := by
  have h0 : 0 < S.1 := (zpow_pos (by norm_num : (0 : ℝ) < 2) _).trans_le h1
  obtain ⟨s, hs, hs1, hs2⟩ := exponent_near hl0 hl1
  have hl : |l.1| ≤ 1 := by rw [abs_of_pos hl0]; exact hl1
  obtain ⟨P, hP, eP⟩ := hL.mid h1 h2 hl
  obtain ⟨Q, hQ, eQ⟩ := hL.mid h1 h2 hs1
  have er := rpow_near h1 h2 hs2
  obtain ⟨r1, r2⟩ := rpow_range h1 h2 hl
  have ee : S.1 ^ (l.1 - 1) = S.1 ^ l.1 / S.1 := Real.rpow_sub_one h0.ne' _
  have hx := Real.rpow_pos_of_pos h0 l.1
  have e1 : (2 : ℝ) ^ (-883 : ℤ) * 2 ≤ (2 : ℝ) ^ (-882 : ℤ) := by
    rw [← zpow_add_one₀ (by norm_num)]; exact zpow_lit _ _ (by norm_num)
  have e2 : (2 : ℝ) ^ (882 : ℤ) * 2 ≤ (2 : ℝ) ^ (883 : ℤ) := by
    rw [← zpow_add_one₀ (by norm_num)]; exact zpow_lit _ _ (by norm_num)
  rw [ee] at er
  rw [abs_le] at eP eQ er
  refine ⟨P, s, Q, hP, ?_, ?_, hs, hQ, ?_⟩
  · have : S.1 ^ l.1 / 2 ≤ P.1 := by linarith [eP.1]
    exact le_trans (by rw [le_div_iff₀ (by norm_num)]; exact e1.trans r1) this
  · have : P.1 ≤ S.1 ^ l.1 * 2 := by linarith [eP.2]
    exact this.trans ((mul_le_mul_of_nonneg_right r2 (by norm_num)).trans e2)
  · have p1 : P.1 / S.1 ≤ (1 + 2e-15) * (S.1 ^ l.1 / S.1) := by
      rw [← mul_div_assoc]; exact div_le_div_of_nonneg_right (by linarith [eP.2]) h0.le
    have p2 : (1 - 2e-15) * (S.1 ^ l.1 / S.1) ≤ P.1 / S.1 := by
      rw [← mul_div_assoc]; exact div_le_div_of_nonneg_right (by linarith [eP.1]) h0.le
    have hy : 0 < S.1 ^ l.1 / S.1 := by positivity
    generalize S.1 ^ l.1 / S.1 = y at *
    generalize S.1 ^ s.1 = x at *
    generalize P.1 / S.1 = t at *
    have k1 := er.1
    have k2 := er.2
    have k3 := eQ.1
    have k4 := eQ.2
    rw [abs_le]
    constructor <;> linarith

/-- **C100**.  In IEEE 754 binary64, with at most 1000 nests and 1000 rows per observation and utilities of at most
600 times the coefficient of their nest, the nested logit probabilities of an observation are positive, at most
`1 + 10^-11`, and add up to one with an error of at most `10^-11`. -/
theorem binary64_nested_sum_partial (hL : PowAccurate L) (hE : ExpRange L) (h : NestedInput lam obs index o)
    (hb : ∀ r (v l : binary64.Num), obs r = o → index r = .fin v → lam (nest r) = .fin l → |v.1| ≤ 600 * l.1)
    (hrow : ∃ r, obs r = o) (hn : Finset.card {r | obs r = o} ≤ 1000) (hm : m ≤ 1000) :
    ∃ p : Fin n → binary64.Num,
      (∀ r, obs r = o → floatNestedProbs L lam obs nest index r = .fin (p r) ∧ 0 < (p r).1 ∧ (p r).1 ≤ 1 + 1e-11) ∧
      |∑ r with obs r = o, (p r).1 - 1| ≤ 1e-11 := by
  have he : ∀ r, ∃ e : binary64.Num, obs r = o → floatExpScaled L lam nest index r = .fin e ∧
      (2 : ℝ) ^ (-870 : ℤ) ≤ e.1 ∧ e.1 ≤ (2 : ℝ) ^ (870 : ℤ) := fun r => by
    by_cases hr : obs r = o
    · obtain ⟨e, a⟩ := expScaled_mid hE h hb hr; exact ⟨e, fun _ => a⟩
    · exact ⟨binary64.zero, fun a => absurd a hr⟩
  choose e he using he
  have he0 : ∀ r, obs r = o → 0 < (e r).1 := fun r hr =>
    (zpow_pos (by norm_num : (0 : ℝ) < 2) _).trans_le (he r hr).2.1
  choose l hl hl0 hl1 using h.lam
  choose S hS hS1 hS2 using nestSum_mid he hn
  set E : Fin m → ℝ := fun k => ∑ r with obs r = o ∧ nest r = k, (e r).1 with hEdef
  have hEle : ∀ r, obs r = o → (e r).1 ≤ E (nest r) := fun r hr =>
    Finset.single_le_sum (f := fun r => (e r).1) (fun i hi => (he0 i (by simpa using (Finset.mem_filter.1 hi).2.1)).le)
      (by simp [hr])
  have hEub : ∀ k, E k ≤ 1000 * (2 : ℝ) ^ (870 : ℤ) := fun k => by
    have hc : Finset.card {r | obs r = o ∧ nest r = k} ≤ 1000 :=
      (Finset.card_le_card fun r hr => by simp at hr ⊢; exact hr.1).trans hn
    refine (Finset.sum_le_card_nsmul _ _ ((2 : ℝ) ^ (870 : ℤ)) fun r hr => (he r (Finset.mem_filter.1 hr).2.1).2.2).trans ?_
    rw [nsmul_eq_mul]
    exact mul_le_mul_of_nonneg_right (by exact_mod_cast hc) (zpow_pos (by norm_num) _).le
  have hSr : ∀ r, obs r = o → (2 : ℝ) ^ (-882 : ℤ) ≤ (S (nest r)).1 ∧ (S (nest r)).1 ≤ (2 : ℝ) ^ (882 : ℤ) := by
    intro r hr
    constructor
    · refine le_trans ?_ (hS1 (nest r))
      have a := (he r hr).2.1.trans (hEle r hr)
      have b : (2 : ℝ) ^ (-882 : ℤ) * 2 ≤ (2 : ℝ) ^ (-870 : ℤ) := by
        rw [← zpow_add_one₀ (by norm_num)]; exact zpow_lit _ _ (by norm_num)
      have c := b.trans a
      have d : (0 : ℝ) < 2 ^ (-882 : ℤ) := zpow_pos (by norm_num) _
      change _ ≤ (1 - 2e-13) * E (nest r)
      generalize E (nest r) = x at *
      generalize (2 : ℝ) ^ (-882 : ℤ) = w at *
      nlinarith
    · refine (hS2 (nest r)).trans ?_
      have a := hEub (nest r)
      have b : (2 : ℝ) ^ (882 : ℤ) = (2 : ℝ) ^ (870 : ℤ) * 4096 := by
        rw [show (882 : ℤ) = 870 + 12 by norm_num, zpow_add₀ (by norm_num)]; norm_num
      have d : (0 : ℝ) < 2 ^ (870 : ℤ) := zpow_pos (by norm_num) _
      change (1 + 2e-13) * E (nest r) ≤ _
      rw [b]
      clear b
      generalize E (nest r) = x at *
      generalize (2 : ℝ) ^ (870 : ℤ) = w at *
      nlinarith
  have hP : ∀ k, ∃ P : binary64.Num, L.pow (S k) (l k) = .fin P ∧ 0 ≤ P.1 ∧ P.1 ≤ (2 : ℝ) ^ (883 : ℤ) ∧
      (∀ r, obs r = o → nest r = k → (2 : ℝ) ^ (-883 : ℤ) ≤ P.1 ∧ ∃ s Q : binary64.Num,
        (Fl.fin (l k)).sub (.round binary64 1) = .fin s ∧ L.pow (S k) s = .fin Q ∧
        |Q.1 - P.1 / (S k).1| ≤ 6e-13 * (P.1 / (S k).1)) ∧
      ((¬ ∃ r, obs r = o ∧ nest r = k) → P.1 = 0) := by
    intro k
    by_cases hk : ∃ r, obs r = o ∧ nest r = k
    · obtain ⟨r, hr, rfl⟩ := hk
      obtain ⟨P, s, Q, a, b, c, d, f, g⟩ := nest_mid hL (hl0 (nest r)) (hl1 (nest r)) (hSr r hr).1 (hSr r hr).2
      exact ⟨P, a, (zpow_pos (by norm_num : (0 : ℝ) < 2) _).le.trans b, c, fun _ _ _ => ⟨b, s, Q, d, f, g⟩,
        fun hk => absurd ⟨r, hr, rfl⟩ hk⟩
    · have hE0 : E k = 0 := by
        rw [hEdef]
        refine Finset.sum_eq_zero fun r hr => absurd ⟨r, by simpa using hr⟩ hk
      have hS0 : (S k).1 = 0 := by
        have a := hS1 k
        have b := hS2 k
        change (1 - 2e-13) * E k ≤ _ at a
        change _ ≤ (1 + 2e-13) * E k at b
        rw [hE0] at a b
        linarith
      exact ⟨binary64.zero, hL.zero _ _ hS0 (hl0 k), le_rfl, (zpow_pos (by norm_num : (0 : ℝ) < 2) _).le,
        fun r hr hk' => absurd ⟨r, hr, hk'⟩ hk, fun _ => rfl⟩
  choose P hPe hP0 hPub hPr hPn using hP
  obtain ⟨D, hD, hD1, hD2⟩ := sum_near ((List.finRange m).map P) (by simpa using hm) (by
    intro x hx
    obtain ⟨k, -, rfl⟩ := List.mem_map.1 hx
    exact ⟨hP0 k, (hPub k).trans (zpow_lit _ _ (by norm_num))⟩)
  rw [List.map_map, show ((fun x : binary64.Num => x.1) ∘ P : Fin m → ℝ) = fun k => (P k).1 from rfl,
    ← List.ofFn_eq_map, List.sum_ofFn] at hD1 hD2
  have hPle : ∀ k, (P k).1 ≤ ∑ k, (P k).1 := fun k =>
    Finset.single_le_sum (f := fun k => (P k).1) (fun i _ => hP0 i) (Finset.mem_univ k)
  have hD884 : (2 : ℝ) ^ (-884 : ℤ) ≤ D.1 := by
    obtain ⟨r, hr⟩ := hrow
    refine le_trans ?_ hD1
    have a := ((hPr _ r hr rfl).1).trans (hPle (nest r))
    have b : (2 : ℝ) ^ (-884 : ℤ) * 2 = (2 : ℝ) ^ (-883 : ℤ) := by
      rw [← zpow_add_one₀ (by norm_num)]; norm_num
    have d : (0 : ℝ) < 2 ^ (-884 : ℤ) := zpow_pos (by norm_num) _
    rw [← b] at a
    generalize (∑ k, (P k).1) = x at *
    generalize (2 : ℝ) ^ (-884 : ℤ) = w at *
    nlinarith
  have hD0 : 0 < D.1 := (zpow_pos (by norm_num : (0 : ℝ) < 2) _).trans_le hD884
  have hDe : floatNestedDenominator L lam obs nest index o = .fin D := by
    unfold floatNestedDenominator
    have : ((List.finRange m).map fun k => (floatNestSum L lam obs nest index o k).pow L (lam k)) =
        ((List.finRange m).map P).map Fl.fin := by
      rw [List.map_map]
      refine List.map_congr_left fun k _ => ?_
      rw [hS, hl]
      exact hPe k
    rw [this, hD]
    simp [guardPos, guardZero, hD0.ne']
  have hT : ∀ r, ∃ p : binary64.Num, obs r = o → floatNestedProbs L lam obs nest index r = .fin p ∧ 0 < p.1 ∧
      (1 - 2e-12) * ((e r).1 / (S (nest r)).1 * ((P (nest r)).1 / D.1)) - 1e-30 ≤ p.1 ∧
      p.1 ≤ (1 + 2e-12) * ((e r).1 / (S (nest r)).1 * ((P (nest r)).1 / D.1)) + 1e-30 := by
    intro r
    by_cases hr : obs r = o
    swap
    · exact ⟨binary64.zero, fun a => absurd a hr⟩
    obtain ⟨hPlo, s, Q, hs, hQ, hQe⟩ := hPr _ r hr rfl
    have hS0 : 0 < (S (nest r)).1 := (zpow_pos (by norm_num : (0 : ℝ) < 2) _).trans_le (hSr r hr).1
    have hPp : 0 < (P (nest r)).1 := (zpow_pos (by norm_num : (0 : ℝ) < 2) _).trans_le hPlo
    have hQ' := abs_le.1 hQe
    have hes : (e r).1 ≤ (1 + 3e-13) * (S (nest r)).1 := by
      have a := (hEle r hr)
      have b := hS1 (nest r)
      change (1 - 2e-13) * E (nest r) ≤ _ at b
      have := he0 r hr
      nlinarith
    have hR : 0 < (P (nest r)).1 / (S (nest r)).1 := by positivity
    have heR : (e r).1 * ((P (nest r)).1 / (S (nest r)).1) ≤ (1 + 3e-13) * (P (nest r)).1 := by
      rw [← mul_div_assoc, div_le_iff₀ hS0]
      nlinarith [mul_le_mul_of_nonneg_right hes hPp.le]
    have heQ0 : 0 ≤ (e r).1 * Q.1 := by
      refine mul_nonneg (he0 r hr).le ?_
      linarith [hQ'.1]
    have heQ : (e r).1 * Q.1 ≤ 1.5 * (P (nest r)).1 := by
      have : Q.1 ≤ (1 + 6e-13) * ((P (nest r)).1 / (S (nest r)).1) := by linarith [hQ'.2]
      have := mul_le_mul_of_nonneg_left this (he0 r hr).le
      linarith
    obtain ⟨N, hN, -, hN0, hN1, hN2⟩ := guarded_round heQ0 (heQ.trans (by
      refine (mul_le_mul_of_nonneg_left (hPub _) (by norm_num)).trans ?_
      refine (mul_le_mul_of_nonneg_right (by norm_num : (1.5 : ℝ) ≤ 2) (zpow_pos (by norm_num) _).le).trans ?_
      rw [← zpow_one_add₀ (by norm_num)]
      exact zpow_lit _ _ (by norm_num)))
    have hPD : (P (nest r)).1 ≤ (1 + 3e-13) * D.1 := by
      have a := hPle (nest r)
      have := hPp
      generalize (∑ k, (P k).1) = x at *
      nlinarith
    have hND : N.1 / D.1 ≤ (2 : ℝ) ^ (1023 : ℤ) := by
      refine le_trans (b := (8 : ℝ)) ?_ ?_
      · rw [div_le_iff₀ hD0]
        have hw : (2 : ℝ) ^ (-989 : ℤ) ≤ D.1 := (zpow_lit _ _ (by norm_num)).trans hD884
        generalize (2 : ℝ) ^ (-989 : ℤ) = w at *
        linarith
      · exact le_of_eq_of_le (by norm_num) (zpow_lit 3 _ (by norm_num))
    obtain ⟨p, -, hp, hp0, hp1, hp2⟩ := guarded_round (div_pos hN0 hD0).le hND
    refine ⟨p, fun _ => ⟨?_, hp0, nested_error (he0 r hr) hS0 hPp hD884 hQe hN1 hN2 hp1 hp2⟩⟩
    have hNe : floatNestedNumerator L lam obs nest index r = .fin N := by
      unfold floatNestedNumerator floatLongSum
      rw [hr, hS, hl, (he r hr).1, pick_eq, pick_eq, pick_eq, hs]
      change (Fl.mul _ (L.pow (S (nest r)) s)).guardPos.guardZero = _
      rw [hQ]
      exact hN
    unfold floatNestedProbs
    rw [hNe, hr, hDe, pick_eq]
    simp only [Fl.div, if_neg hD0.ne']
    exact hp
  choose p hp using hT
  have hEk : ∀ k, |∑ r with obs r = o ∧ nest r = k, (e r).1 / (S (nest r)).1 * ((P (nest r)).1 / D.1)
      - (P k).1 / D.1| ≤ 3e-13 * ((P k).1 / D.1) := by
    intro k
    have h1 : ∑ r with obs r = o ∧ nest r = k, (e r).1 / (S (nest r)).1 * ((P (nest r)).1 / D.1) =
        E k / (S k).1 * ((P k).1 / D.1) := by
      rw [hEdef, Finset.sum_div, Finset.sum_mul]
      refine Finset.sum_congr rfl fun r hr => ?_
      rw [(Finset.mem_filter.1 hr).2.2]
    rw [h1]
    by_cases hk : ∃ r, obs r = o ∧ nest r = k
    · obtain ⟨r, hr, rfl⟩ := hk
      have hS0 : 0 < (S (nest r)).1 := (zpow_pos (by norm_num : (0 : ℝ) < 2) _).trans_le (hSr r hr).1
      have a := hS1 (nest r)
      have b := hS2 (nest r)
      change (1 - 2e-13) * E (nest r) ≤ _ at a
      change _ ≤ (1 + 2e-13) * E (nest r) at b
      have c : E (nest r) / (S (nest r)).1 ≤ 1 + 3e-13 := by rw [div_le_iff₀ hS0]; nlinarith
      have d : 1 - 3e-13 ≤ E (nest r) / (S (nest r)).1 := by rw [le_div_iff₀ hS0]; nlinarith
      have f : 0 ≤ (P (nest r)).1 / D.1 := div_nonneg (hP0 _) hD0.le
      rw [abs_le]
      constructor <;> nlinarith
    · rw [hPn k hk]; simp
  have hPsum : ∑ k, (P k).1 / D.1 ≤ 1 + 3e-13 ∧ 1 - 3e-13 ≤ ∑ k, (P k).1 / D.1 := by
    rw [← Finset.sum_div]
    constructor
    · rw [div_le_iff₀ hD0]; nlinarith
    · rw [le_div_iff₀ hD0]; nlinarith
  have hfib : ∑ r with obs r = o, (e r).1 / (S (nest r)).1 * ((P (nest r)).1 / D.1) =
      ∑ k, ∑ r with obs r = o ∧ nest r = k, (e r).1 / (S (nest r)).1 * ((P (nest r)).1 / D.1) := by
    rw [← Finset.sum_fiberwise _ nest]
    refine Finset.sum_congr rfl fun k _ => ?_
    rw [Finset.filter_filter]
  have hTsum : |∑ r with obs r = o, (e r).1 / (S (nest r)).1 * ((P (nest r)).1 / D.1) -
      ∑ k, (P k).1 / D.1| ≤ 3e-13 * ∑ k, (P k).1 / D.1 := by
    rw [hfib, ← Finset.sum_sub_distrib, Finset.mul_sum]
    exact (Finset.abs_sum_le_sum_abs _ _).trans (Finset.sum_le_sum fun k _ => hEk k)
  have hT0 : ∀ r, obs r = o → 0 < (e r).1 / (S (nest r)).1 * ((P (nest r)).1 / D.1) := fun r hr => by
    have hS0 : 0 < (S (nest r)).1 := (zpow_pos (by norm_num : (0 : ℝ) < 2) _).trans_le (hSr r hr).1
    have hPp : 0 < (P (nest r)).1 := (zpow_pos (by norm_num : (0 : ℝ) < 2) _).trans_le (hPr _ r hr rfl).1
    have := he0 r hr
    positivity
  have hbound : ∑ r with obs r = o, (e r).1 / (S (nest r)).1 * ((P (nest r)).1 / D.1) ≤ 1 + 1e-12 ∧
      1 - 1e-12 ≤ ∑ r with obs r = o, (e r).1 / (S (nest r)).1 * ((P (nest r)).1 / D.1) := by
    rw [abs_le] at hTsum
    constructor <;> linarith [hTsum.1, hTsum.2, hPsum.1, hPsum.2]
  refine ⟨p, fun r hr => ⟨(hp r hr).1, (hp r hr).2.1, ?_⟩, ?_⟩
  · have a := Finset.single_le_sum (f := fun r => (e r).1 / (S (nest r)).1 * ((P (nest r)).1 / D.1))
      (fun i hi => (hT0 i (by simpa using hi)).le) (show r ∈ ({r | obs r = o} : Finset (Fin n)) by simpa using hr)
    have b := (hp r hr).2.2.2
    have c := hbound.1
    generalize (e r).1 / (S (nest r)).1 * ((P (nest r)).1 / D.1) = t at *
    linarith
  · have up : ∑ r with obs r = o, (p r).1 ≤ ∑ r with obs r = o,
        ((1 + 2e-12) * ((e r).1 / (S (nest r)).1 * ((P (nest r)).1 / D.1)) + 1e-30) :=
      Finset.sum_le_sum fun r hr => (hp r (by simpa using hr)).2.2.2
    have lo : ∑ r with obs r = o,
        ((1 - 2e-12) * ((e r).1 / (S (nest r)).1 * ((P (nest r)).1 / D.1)) - 1e-30) ≤ ∑ r with obs r = o, (p r).1 :=
      Finset.sum_le_sum fun r hr => (hp r (by simpa using hr)).2.2.1
    rw [Finset.sum_add_distrib, ← Finset.mul_sum, Finset.sum_const, nsmul_eq_mul] at up
    rw [Finset.sum_sub_distrib, ← Finset.mul_sum, Finset.sum_const, nsmul_eq_mul] at lo
    have hc : ((Finset.card {r | obs r = o} : ℕ) : ℝ) ≤ 1000 := by exact_mod_cast hn
    rw [abs_le]
    constructor <;> nlinarith [hbound.1, hbound.2]

end Sum

/-- A table that meets the hypotheses: two nests with coefficients 1 and 1/2, three rows. -/
example : ∃ p : Fin 3 → binary64.Num,
    (∀ r, () = () → floatNestedProbs roundedLib ![.fin binary64.one, .fin (Binary64.powNum (-1) (by norm_num) (by norm_num))]
      (fun _ => ()) ![0, 0, 1] (fun _ => .fin binary64.one) r = .fin (p r) ∧ 0 < (p r).1 ∧ (p r).1 ≤ 1 + 1e-11) ∧
    |∑ r with () = (), (p r).1 - 1| ≤ 1e-11 := by
  have h1 : binary64.one.1 = 1 := rfl
  have h2 : (Binary64.powNum (-1) (by norm_num) (by norm_num)).1 = (2 : ℝ) ^ (-1 : ℤ) := rfl
  refine binary64_nested_sum_partial (o := ()) roundedLib_powAccurate roundedLib_expRange ⟨fun r _ => ⟨_, rfl⟩, ?_⟩ ?_
    ⟨0, rfl⟩ (by simp) (by norm_num)
  · intro k
    fin_cases k
    · exact ⟨_, rfl, by rw [h1]; norm_num, by rw [h1]⟩
    · exact ⟨_, rfl, by rw [h2]; norm_num, by rw [h2]; norm_num⟩
  · intro r v l _ hv hl
    have hv : binary64.one = v := Fl.fin.inj hv
    subst hv
    rw [h1]
    fin_cases r <;> (have hl := Fl.fin.inj hl; subst hl)
    · change |(1 : ℝ)| ≤ 600 * 1; norm_num
    · change |(1 : ℝ)| ≤ 600 * 1; norm_num
    · change |(1 : ℝ)| ≤ 600 * (2 : ℝ) ^ (-1 : ℤ); norm_num

/-! ## Failures outside the range -/

theorem round_overflow {y : ℝ} (h : (2 : ℝ) ^ (1024 : ℤ) ≤ y) : Fl.round binary64 y = .pinf := by
  have h1 : (2 : ℝ) ^ (1024 : ℤ) ≤ Binary64.rnd y := by
    rw [← Binary64.rnd_of_mem (Binary64.F_pow (by norm_num : (-1074 : ℤ) ≤ 1024))]
    exact Binary64.rnd_mono h
  have h2 : Binary64.big < (2 : ℝ) ^ (1024 : ℤ) := by
    rw [Binary64.big, show (1024 : ℤ) = 53 + 971 by norm_num, Binary64.zpow_split]
    refine mul_lt_mul_of_pos_right (by norm_num) (zpow_pos (by norm_num) _)
  rcases round_cases binary64 y with ⟨h, -⟩ | ⟨-, h⟩ | ⟨z, -, hz⟩
  · exact h
  · exfalso
    have := binary64.one_le_big
    have h3 : (0 : ℝ) < (2 : ℝ) ^ (1024 : ℤ) := zpow_pos (by norm_num) _
    have h : Binary64.rnd y < -binary64.big := h
    generalize (2 : ℝ) ^ (1024 : ℤ) = w at *
    linarith
  · exfalso
    have h3 : z.1 ≤ Binary64.big := (le_abs_self _).trans z.2.2
    rw [hz] at h3
    exact absurd (h1.trans h3) (not_le.2 h2)

theorem maxC_le : binary64.maxC.1 ≤ (2 : ℝ) ^ (1000 : ℤ) := by
  change Binary64.rnd maxCompValue ≤ _
  rw [← Binary64.rnd_of_mem (Binary64.F_pow (by norm_num : (-1074 : ℤ) ≤ 1000))]
  exact Binary64.rnd_mono Binary64.maxComp_le_pow

theorem le_maxC : (2 : ℝ) ^ (900 : ℤ) ≤ binary64.maxC.1 := by
  change _ ≤ Binary64.rnd maxCompValue
  rw [← Binary64.rnd_of_mem (Binary64.F_pow (by norm_num : (-1074 : ℤ) ≤ 900))]
  refine Binary64.rnd_mono ?_
  rw [maxCompValue, show (900 : ℤ) = ((900 : ℕ) : ℤ) from rfl, zpow_natCast, show 900 = 9 * 100 from rfl,
    show 300 = 3 * 100 from rfl, pow_mul, pow_mul]
  exact pow_le_pow_left₀ (by norm_num) (by norm_num) _

theorem maxC_pos : 0 < binary64.maxC.1 := (zpow_pos (by norm_num : (0 : ℝ) < 2) _).trans_le le_maxC

theorem one_sub_one : (Fl.fin binary64.one).sub (.round binary64 1) = .fin binary64.zero := by
  rw [Fl.round_one, Fl.sub, neg_fin]
  change Fl.round binary64 (1 + -1) = _
  rw [show (1 : ℝ) + -1 = 0 by norm_num, Fl.round_zero]

theorem rounded_pow_one (x : binary64.Num) : (Fl.fin x).pow roundedLib (.fin binary64.one) = .fin x := by
  change Fl.round binary64 (x.1 ^ (1 : ℝ)) = _
  rw [Real.rpow_one, Fl.round_num]

theorem rounded_pow_zero (x : binary64.Num) : (Fl.fin x).pow roundedLib (.fin binary64.zero) = .fin binary64.one := by
  change Fl.round binary64 (x.1 ^ (0 : ℝ)) = _
  rw [Real.rpow_zero, Fl.round_one]

theorem div_one_num (x : binary64.Num) : (Fl.fin x).div (.fin binary64.one) = .fin x := by
  have h : binary64.one.1 = 1 := rfl
  simp only [Fl.div, h, one_ne_zero, if_false, div_one]
  exact Fl.round_num x

theorem mul_one_num (x : binary64.Num) : (Fl.fin x).mul (.fin binary64.one) = .fin x := by
  change Fl.round binary64 (x.1 * 1) = _
  rw [_root_.mul_one, Fl.round_num]

/-- **C100 fails when the sum of a nest overflows**: eight alternatives of one nest with coefficient 1 and utility
709 each.  Each probability is 1/8, but reported as a number greater than four millions. -/
theorem float_nested_overflow (r : Fin 8) :
    ∃ p : binary64.Num, floatNestedProbs roundedLib (fun _ : Fin 1 => .fin binary64.one) (fun _ => ()) (fun _ => 0)
      (fun _ => .fin (binary64.intNum 709 (by norm_num))) r = .fin p ∧ (2 : ℝ) ^ (22 : ℤ) ≤ p.1 := by
  have h2 := Real.log_two_gt_d9
  have h2' := Real.log_two_lt_d9
  obtain ⟨e, he, -, he1, he2⟩ := Fl.round_between (A := binary64) (r := Real.exp ((709 : ℤ) : ℝ))
    (a := Binary64.powNum 1022 (by norm_num) (by norm_num)) (b := Binary64.powNum 1023 (by norm_num) (by norm_num))
    (zpow_le_exp (by push_cast; linarith)) (exp_le_zpow (by push_cast; linarith))
  have he1 : (2 : ℝ) ^ (1022 : ℤ) ≤ e.1 := he1
  have he0 : 0 < e.1 := (zpow_pos (by norm_num : (0 : ℝ) < 2) _).trans_le he1
  have hE : ∀ r, floatExpScaled roundedLib (fun _ : Fin 1 => .fin binary64.one) (fun _ : Fin 8 => 0)
      (fun _ => .fin (binary64.intNum 709 (by norm_num))) r = .fin e := by
    intro r
    unfold floatExpScaled floatScaledIndex
    rw [pick_eq, div_one_num]
    change (Fl.round binary64 (Real.exp ((709 : ℤ) : ℝ))).guardPos.guardZero = _
    rw [he]
    simp [guardPos, guardZero, he0.ne']
  have hS : floatNestSum roundedLib (fun _ : Fin 1 => .fin binary64.one) (fun _ => ()) (fun _ : Fin 8 => 0)
      (fun _ => .fin (binary64.intNum 709 (by norm_num))) () 0 = .fin binary64.maxC := by
    unfold floatNestSum
    have hl : (((rowsOfObs (fun _ : Fin 8 => ()) ()).filter fun _ => (0 : Fin 1) = 0).map fun r =>
        (Fl.round binary64 1).mul ((Fl.round binary64 1).mul (floatExpScaled roundedLib
          (fun _ : Fin 1 => .fin binary64.one) (fun _ : Fin 8 => 0)
          (fun _ => .fin (binary64.intNum 709 (by norm_num))) r))) = (List.replicate 8 e).map Fl.fin := by
      simp only [Fl.one_mul, hE]
      rfl
    rw [hl]
    have h0 : AtLeast 0 (Fl.sum ((List.replicate 8 e).map Fl.fin)) := sum_nonneg (by
      intro x hx
      obtain ⟨y, hy, rfl⟩ := List.mem_map.1 hx
      rw [List.eq_of_mem_replicate hy]
      exact Or.inr ⟨e, rfl, he0.le⟩)
    rcases h0 with h0 | ⟨S, h0, -⟩
    · rw [h0]; exact maxComp_eq
    · exfalso
      rw [Fl.sum, Fl.round_zero] at h0
      have := (foldl_accurate binary64_accurate _ (by
        intro y hy; rw [List.eq_of_mem_replicate hy]; exact he0.le) binary64.zero le_rfl h0).1
      rw [show binary64.zero.1 = 0 from rfl, _root_.zero_add, List.map_replicate, List.sum_replicate,
        List.length_replicate, nsmul_eq_mul] at this
      have hb : Fl.round binary64 S.1 = .fin S := Fl.round_num S
      rw [round_overflow] at hb
      · simp at hb
      · refine le_trans ?_ this
        have e1 : (2 : ℝ) ^ (1024 : ℤ) = 4 * 2 ^ (1022 : ℤ) := by
          rw [show (1024 : ℤ) = 2 + 1022 by norm_num, Binary64.zpow_split]; norm_num
        have e2 : (1 / 2 : ℝ) ≤ (1 - (2 : ℝ) ^ (-53 : ℤ)) ^ 8 := by norm_num
        rw [e1]
        generalize (2 : ℝ) ^ (1022 : ℤ) = w at *
        generalize (1 - (2 : ℝ) ^ (-53 : ℤ)) ^ 8 = v at *
        push_cast
        nlinarith
  have hD : floatNestedDenominator roundedLib (fun _ : Fin 1 => .fin binary64.one) (fun _ => ()) (fun _ : Fin 8 => 0)
      (fun _ => .fin (binary64.intNum 709 (by norm_num))) () = .fin binary64.maxC := by
    unfold floatNestedDenominator
    have : ((List.finRange 1).map fun k => (floatNestSum roundedLib (fun _ : Fin 1 => .fin binary64.one)
        (fun _ => ()) (fun _ : Fin 8 => 0) (fun _ => .fin (binary64.intNum 709 (by norm_num))) () k).pow roundedLib
        (.fin binary64.one)) = [.fin binary64.maxC] := by
      rw [show List.finRange 1 = [0] from rfl, List.map_singleton, hS, rounded_pow_one]
    rw [this, Fl.sum, List.foldl_cons, List.foldl_nil, Fl.zero_add]
    simp [guardPos, guardZero, maxC_pos.ne']
  have hN : floatNestedNumerator roundedLib (fun _ : Fin 1 => .fin binary64.one) (fun _ => ()) (fun _ : Fin 8 => 0)
      (fun _ => .fin (binary64.intNum 709 (by norm_num))) r = .fin e := by
    unfold floatNestedNumerator floatLongSum
    rw [hE, hS, pick_eq, pick_eq, pick_eq, one_sub_one, rounded_pow_zero, mul_one_num]
    simp [guardPos, guardZero, he0.ne']
  unfold floatNestedProbs
  rw [hN, hD, pick_eq]
  simp only [Fl.div, if_neg maxC_pos.ne']
  obtain ⟨p, hp, -, hp1, -⟩ := Fl.round_between (A := binary64) (r := e.1 / binary64.maxC.1)
    (a := Binary64.powNum 22 (by norm_num) (by norm_num)) (b := Binary64.powNum 1023 (by norm_num) (by norm_num))
    (by
      change (2 : ℝ) ^ (22 : ℤ) ≤ _
      rw [le_div_iff₀ maxC_pos]
      refine (mul_le_mul_of_nonneg_left maxC_le (zpow_pos (by norm_num) _).le).trans ?_
      rw [← Binary64.zpow_split]
      exact he1)
    ((div_le_self he0.le ((one_le_zpow₀ (by norm_num) (by norm_num)).trans le_maxC)).trans he2)
  have hp1 : (2 : ℝ) ^ (22 : ℤ) ≤ p.1 := hp1
  refine ⟨p, ?_, hp1⟩
  rw [hp]
  have : p.1 ≠ 0 := ((zpow_pos (by norm_num : (0 : ℝ) < 2) _).trans_le hp1).ne'
  simp [guardZero, this]

/-- **C100 fails when the power of the sum overflows**: two nests of one alternative each.  The first has
coefficient 1/32 and utility -23, the second coefficient 1 and utility 0.  The probability of the first alternative
is about `10^-10`, but reported as a number greater than `2^899`. -/
theorem float_nested_power_overflow :
    ∃ p : binary64.Num, floatNestedProbs roundedLib
      ![.fin (Binary64.powNum (-5) (by norm_num) (by norm_num)), .fin binary64.one] (fun _ : Fin 2 => ()) id
      ![.fin (binary64.intNum (-23) (by norm_num)), .fin binary64.zero] 0 = .fin p ∧ (2 : ℝ) ^ (899 : ℤ) ≤ p.1 := by
  set lam : Fin 2 → Fl binary64 := ![.fin (Binary64.powNum (-5) (by norm_num) (by norm_num)), .fin binary64.one]
    with hlam
  set index : Fin 2 → Fl binary64 := ![.fin (binary64.intNum (-23) (by norm_num)), .fin binary64.zero] with hindex
  have h2 := Real.log_two_gt_d9
  have h2' := Real.log_two_lt_d9
  have hl5 : (Binary64.powNum (-5) (by norm_num) (by norm_num)).1 = (2 : ℝ) ^ (-5 : ℤ) := rfl
  obtain ⟨e, he, -, he1, he2⟩ := Fl.round_between (A := binary64) (r := Real.exp ((-736 : ℤ) : ℝ))
    (a := Binary64.powNum (-1062) (by norm_num) (by norm_num))
    (b := Binary64.powNum (-1061) (by norm_num) (by norm_num))
    (zpow_le_exp (by push_cast; linarith)) (exp_le_zpow (by push_cast; linarith))
  have he0 : 0 < e.1 := (zpow_pos (by norm_num : (0 : ℝ) < 2) _).trans_le he1
  have hE0 : floatExpScaled roundedLib lam id index 0 = .fin e := by
    unfold floatExpScaled floatScaledIndex
    have : (Fl.fin (binary64.intNum (-23) (by norm_num))).div
        (.fin (Binary64.powNum (-5) (by norm_num) (by norm_num))) = .fin (binary64.intNum (-736) (by norm_num)) := by
      rw [← Fl.round_num (binary64.intNum (-736) (by norm_num))]
      simp only [Fl.div, hl5, if_neg (by positivity : (2 : ℝ) ^ (-5 : ℤ) ≠ 0)]
      congr 1
      change ((-23 : ℤ) : ℝ) / (2 : ℝ) ^ (-5 : ℤ) = ((-736 : ℤ) : ℝ)
      norm_num
    rw [pick_eq]
    change (((Fl.fin (binary64.intNum (-23) (by norm_num))).div
      (.fin (Binary64.powNum (-5) (by norm_num) (by norm_num)))).guardPos.guardNeg.exp roundedLib).guardPos.guardZero = _
    rw [this]
    change (Fl.round binary64 (Real.exp ((-736 : ℤ) : ℝ))).guardPos.guardZero = _
    rw [he]
    simp [guardPos, guardZero, he0.ne']
  have hE1 : floatExpScaled roundedLib lam id index 1 = .fin binary64.one := by
    unfold floatExpScaled floatScaledIndex
    rw [pick_eq]
    change (((Fl.fin binary64.zero).div (.fin binary64.one)).guardPos.guardNeg.exp roundedLib).guardPos.guardZero = _
    rw [div_one_num]
    change (Fl.round binary64 (Real.exp 0)).guardPos.guardZero = _
    rw [Real.exp_zero, Fl.round_one]
    have : binary64.one.1 = 1 := rfl
    simp [guardPos, guardZero, this]
  have hS : ∀ k, floatNestSum roundedLib lam (fun _ : Fin 2 => ()) id index () k =
      (floatExpScaled roundedLib lam id index k).guardPos := by
    intro k
    unfold floatNestSum
    have : ((rowsOfObs (fun _ : Fin 2 => ()) ()).filter fun r => id r = k) = [k] := by
      fin_cases k <;> rfl
    rw [this, List.map_singleton, Fl.one_mul, Fl.one_mul, Fl.sum, List.foldl_cons, List.foldl_nil, Fl.zero_add]
  obtain ⟨P, hP, -, hP0, hP1⟩ := Fl.round_between (A := binary64) (r := e.1 ^ ((2 : ℝ) ^ (-5 : ℤ)))
    (a := binary64.zero) (b := binary64.one) (Real.rpow_nonneg he0.le _)
    (Real.rpow_le_one he0.le (he2.trans (zpow_le_one_of_nonpos₀ (by norm_num) (by norm_num))) (by norm_num))
  have hP0 : 0 ≤ P.1 := hP0
  have hP1 : P.1 ≤ 1 := hP1
  obtain ⟨D, hD, -, hD1, hD2⟩ := Fl.round_between (A := binary64) (r := P.1 + 1)
    (a := binary64.one) (b := Binary64.powNum 1 (by norm_num) (by norm_num))
    (by change (1 : ℝ) ≤ _; linarith) (by change _ ≤ (2 : ℝ) ^ (1 : ℤ); rw [zpow_one]; linarith)
  have hD1 : 1 ≤ D.1 := hD1
  have hD2 : D.1 ≤ 2 := by have : D.1 ≤ (2 : ℝ) ^ (1 : ℤ) := hD2; rwa [zpow_one] at this
  have hD0 : 0 < D.1 := by linarith
  have hDe : floatNestedDenominator roundedLib lam (fun _ : Fin 2 => ()) id index () = .fin D := by
    unfold floatNestedDenominator
    rw [show List.finRange 2 = [0, 1] from rfl, List.map_cons, List.map_singleton, hS, hS, hE0, hE1]
    change (Fl.sum [Fl.round binary64 (e.1 ^ ((2 : ℝ) ^ (-5 : ℤ))),
      (Fl.fin binary64.one).pow roundedLib (.fin binary64.one)]).guardPos.guardZero = _
    rw [hP, rounded_pow_one, Fl.sum, List.foldl_cons, List.foldl_cons, List.foldl_nil, Fl.zero_add]
    change (Fl.round binary64 (P.1 + 1)).guardPos.guardZero = _
    rw [hD]
    simp [guardPos, guardZero, hD0.ne']
  have hN : floatNestedNumerator roundedLib lam (fun _ : Fin 2 => ()) id index 0 = .fin binary64.maxC := by
    unfold floatNestedNumerator floatLongSum
    rw [hE0, hS, pick_eq, pick_eq, pick_eq]
    change ((Fl.fin e).mul ((floatExpScaled roundedLib lam id index 0).guardPos.pow roundedLib
      ((Fl.fin (Binary64.powNum (-5) (by norm_num) (by norm_num))).sub (.round binary64 1)))).guardPos.guardZero = _
    obtain ⟨s, hs, hs', -⟩ := sub_one_fin (l := Binary64.powNum (-5) (by norm_num) (by norm_num))
      (by rw [hl5]; norm_num) (by rw [hl5]; norm_num)
    have hs1 : s.1 = -31 / 32 := by
      rw [hs', hl5, show (2 : ℝ) ^ (-5 : ℤ) - 1 = ((-31 : ℤ) : ℝ) * (2 : ℝ) ^ (-5 : ℤ) by norm_num]
      refine (Binary64.rnd_of_mem (Binary64.F_mul (by norm_num) (by norm_num))).trans (by norm_num)
    have hQ : Fl.round binary64 (e.1 ^ s.1) = .pinf := by
      refine round_overflow ?_
      rw [Real.rpow_def_of_pos he0]
      refine zpow_le_exp ?_
      have := Real.log_le_log he0 he2
      rw [show (Binary64.powNum (-1061) (by norm_num) (by norm_num)).1 = (2 : ℝ) ^ (-1061 : ℤ) from rfl,
        Real.log_zpow] at this
      push_cast at this ⊢
      rw [hs1]
      linarith
    rw [hE0, hs]
    change ((Fl.fin e).mul (Fl.round binary64 (e.1 ^ s.1))).guardPos.guardZero = _
    rw [hQ]
    have h3 : (Fl.fin e).mul .pinf = .pinf := by simp [Fl.mul, scaleInf, he0, he0.ne']
    rw [h3, show (Fl.pinf : Fl binary64).guardPos = .fin binary64.maxC from maxComp_eq]
    simp [guardZero, maxC_pos.ne']
  unfold floatNestedProbs
  rw [hN, hDe, pick_eq]
  simp only [Fl.div, if_neg hD0.ne']
  obtain ⟨p, hp, -, hp1, -⟩ := Fl.round_between (A := binary64) (r := binary64.maxC.1 / D.1)
    (a := Binary64.powNum 899 (by norm_num) (by norm_num)) (b := Binary64.powNum 1000 (by norm_num) (by norm_num))
    (by
      change (2 : ℝ) ^ (899 : ℤ) ≤ _
      rw [le_div_iff₀ hD0]
      refine (mul_le_mul_of_nonneg_left hD2 (zpow_pos (by norm_num) _).le).trans ?_
      rw [← zpow_add_one₀ (by norm_num)]
      exact le_maxC)
    ((div_le_self maxC_pos.le hD1).trans maxC_le)
  have hp1 : (2 : ℝ) ^ (899 : ℤ) ≤ p.1 := hp1
  refine ⟨p, ?_, hp1⟩
  rw [hp]
  have : p.1 ≠ 0 := ((zpow_pos (by norm_num : (0 : ℝ) < 2) _).trans_le hp1).ne'
  simp [guardZero, this]

theorem le_minC : (2 : ℝ) ^ (-1000 : ℤ) ≤ binary64.minC.1 := Binary64.rnd_minComp

/-- **C100**: nor are probabilities ordered like the utilities.  Of two alternatives in a nest with coefficient 1 and
utilities -744 and -746, the second is reported to be chosen almost always. -/
theorem float_nested_order_reversed :
    ∃ p q : binary64.Num,
      floatNestedProbs roundedLib (fun _ : Fin 1 => .fin binary64.one) (fun _ : Fin 2 => ()) (fun _ => 0)
        ![.fin (binary64.intNum (-744) (by norm_num)), .fin (binary64.intNum (-746) (by norm_num))] 0 = .fin p ∧
      floatNestedProbs roundedLib (fun _ : Fin 1 => .fin binary64.one) (fun _ : Fin 2 => ()) (fun _ => 0)
        ![.fin (binary64.intNum (-744) (by norm_num)), .fin (binary64.intNum (-746) (by norm_num))] 1 = .fin q ∧
      p.1 ≤ (2 : ℝ) ^ (-73 : ℤ) ∧ 1 / 2 ≤ q.1 := by
  set lam : Fin 1 → Fl binary64 := fun _ => .fin binary64.one with hlam
  set index : Fin 2 → Fl binary64 :=
    ![.fin (binary64.intNum (-744) (by norm_num)), .fin (binary64.intNum (-746) (by norm_num))] with hindex
  have h2 := Real.log_two_gt_d9
  have h2' := Real.log_two_lt_d9
  have hmin : 0 < binary64.minC.1 := binary64.minComp_pos
  obtain ⟨e, he, -, he1, he2⟩ := Fl.round_between (A := binary64) (r := Real.exp ((-744 : ℤ) : ℝ))
    (a := Binary64.powNum (-1074) (by norm_num) (by norm_num))
    (b := Binary64.powNum (-1073) (by norm_num) (by norm_num))
    (zpow_le_exp (by push_cast; linarith)) (exp_le_zpow (by push_cast; linarith))
  have he2 : e.1 ≤ (2 : ℝ) ^ (-1073 : ℤ) := he2
  have he0 : 0 < e.1 := (zpow_pos (by norm_num : (0 : ℝ) < 2) _).trans_le he1
  have hemin : e.1 ≤ binary64.minC.1 := he2.trans ((zpow_lit _ _ (by norm_num)).trans le_minC)
  have hE0 : floatExpScaled roundedLib lam (fun _ : Fin 2 => 0) index 0 = .fin e := by
    unfold floatExpScaled floatScaledIndex
    rw [pick_eq, hlam, hindex]
    change (((Fl.fin (binary64.intNum (-744) (by norm_num))).div
      (.fin binary64.one)).guardPos.guardNeg.exp roundedLib).guardPos.guardZero = _
    rw [div_one_num]
    change (Fl.round binary64 (Real.exp ((-744 : ℤ) : ℝ))).guardPos.guardZero = _
    rw [he]
    simp [guardPos, guardZero, he0.ne']
  have hE1 : floatExpScaled roundedLib lam (fun _ : Fin 2 => 0) index 1 = .fin binary64.minC := by
    unfold floatExpScaled floatScaledIndex
    rw [pick_eq, hlam, hindex]
    change (((Fl.fin (binary64.intNum (-746) (by norm_num))).div
      (.fin binary64.one)).guardPos.guardNeg.exp roundedLib).guardPos.guardZero = _
    rw [div_one_num]
    change (Fl.round binary64 (Real.exp ((-746 : ℤ) : ℝ))).guardPos.guardZero = _
    have hz : Binary64.rnd (Real.exp ((-746 : ℤ) : ℝ)) = 0 := by
      refine Binary64.rnd_tiny (Real.exp_pos _).le ?_
      refine lt_of_lt_of_eq (Real.exp_lt_exp.2 (?_ : _ < ((-1075 : ℤ) : ℝ) * Real.log 2)) ?_
      · push_cast; linarith
      · rw [← Real.log_zpow, Real.exp_log (zpow_pos (by norm_num) _)]
    obtain ⟨z, h1, h3, -⟩ := Fl.round_between (A := binary64) (r := Real.exp ((-746 : ℤ) : ℝ))
      (a := binary64.zero) (b := binary64.one) (Real.exp_pos _).le (Real.exp_le_one_iff.2 (by norm_num))
    rw [h1]
    have : z.1 = 0 := h3.trans hz
    simp [guardPos, guardZero, this, minComp_eq]
  obtain ⟨S, hSr, -, hS1, hS2⟩ := Fl.round_between (A := binary64) (r := e.1 + binary64.minC.1)
    (a := binary64.minC) (b := Binary64.powNum 0 (by norm_num) (by norm_num)) (by linarith) (by
      have h1 : binary64.minC.1 ≤ (2 : ℝ) ^ (-990 : ℤ) := minComp_le_zpow
      have h3 : (2 : ℝ) ^ (-990 : ℤ) ≤ (2 : ℝ) ^ (-1 : ℤ) := zpow_lit _ _ (by norm_num)
      have h4 : (2 : ℝ) ^ (-1 : ℤ) = 1 / 2 := by norm_num
      change _ ≤ (2 : ℝ) ^ (0 : ℤ)
      rw [h4] at h3
      rw [zpow_zero]
      generalize (2 : ℝ) ^ (-990 : ℤ) = w at *
      linarith)
  have hS2' : S.1 ≤ 2 * binary64.minC.1 := by
    have h3 : S.1 = Binary64.rnd (e.1 + binary64.minC.1) := round_fin hSr
    rw [h3]
    have h5 : 2 * binary64.minC.1 ∈ Binary64.F := by
      obtain ⟨a, b, h6, h7, h8⟩ := Binary64.mem_F binary64.minC
      exact ⟨a, b + 1, h6, by omega, by rw [h8, zpow_add_one₀ (by norm_num)]; ring⟩
    rw [← Binary64.rnd_of_mem h5]
    exact Binary64.rnd_mono (by linarith)
  have hS0 : 0 < S.1 := hmin.trans_le hS1
  have hS : floatNestSum roundedLib lam (fun _ : Fin 2 => ()) (fun _ => 0) index () 0 = .fin S := by
    unfold floatNestSum
    have : ((rowsOfObs (fun _ : Fin 2 => ()) ()).filter fun _ => (0 : Fin 1) = 0) = [0, 1] := rfl
    rw [this, List.map_cons, List.map_singleton]
    simp only [Fl.one_mul]
    rw [hE0, hE1, Fl.sum, List.foldl_cons, List.foldl_cons, List.foldl_nil, Fl.zero_add]
    change (Fl.round binary64 (e.1 + binary64.minC.1)).guardPos = _
    rw [hSr]
    rfl
  have hD : floatNestedDenominator roundedLib lam (fun _ : Fin 2 => ()) (fun _ => 0) index () = .fin S := by
    unfold floatNestedDenominator
    rw [show List.finRange 1 = [0] from rfl, List.map_singleton, hS, hlam, rounded_pow_one, Fl.sum, List.foldl_cons,
      List.foldl_nil, Fl.zero_add]
    simp [guardPos, guardZero, hS0.ne']
  have hN : ∀ r (x : binary64.Num), 0 < x.1 → floatExpScaled roundedLib lam (fun _ : Fin 2 => 0) index r = .fin x →
      floatNestedNumerator roundedLib lam (fun _ : Fin 2 => ()) (fun _ => 0) index r = .fin x := by
    intro r x hx h
    unfold floatNestedNumerator floatLongSum
    rw [h, hS, pick_eq, pick_eq, pick_eq, hlam, one_sub_one, rounded_pow_zero, mul_one_num]
    simp [guardPos, guardZero, hx.ne']
  have hmin73 : binary64.minC.1 ≤ (2 : ℝ) ^ (-73 : ℤ) :=
    (show binary64.minC.1 ≤ (2 : ℝ) ^ (-990 : ℤ) from minComp_le_zpow).trans (zpow_lit _ _ (by norm_num))
  obtain ⟨p, hp, -, hp0, hp1⟩ := Fl.round_between (A := binary64) (r := e.1 / S.1) (a := binary64.zero)
    (b := Binary64.powNum (-73) (by norm_num) (by norm_num)) (div_pos he0 hS0).le (by
      change _ ≤ (2 : ℝ) ^ (-73 : ℤ)
      rw [div_le_iff₀ hS0]
      refine he2.trans ?_
      rw [show (-1073 : ℤ) = -73 + -1000 by norm_num, Binary64.zpow_split]
      exact mul_le_mul_of_nonneg_left (le_minC.trans hS1) (zpow_pos (by norm_num) _).le)
  obtain ⟨q, hq, -, hq0, -⟩ := Fl.round_between (A := binary64) (r := binary64.minC.1 / S.1)
    (a := Binary64.powNum (-1) (by norm_num) (by norm_num)) (b := binary64.one) (by
      change (2 : ℝ) ^ (-1 : ℤ) ≤ _
      rw [le_div_iff₀ hS0, show (2 : ℝ) ^ (-1 : ℤ) = 1 / 2 by norm_num]
      linarith) (by change _ ≤ (1 : ℝ); rw [div_le_one hS0]; exact hS1)
  have hq0 : 1 / 2 ≤ q.1 := by
    have : (2 : ℝ) ^ (-1 : ℤ) ≤ q.1 := hq0
    rwa [show (2 : ℝ) ^ (-1 : ℤ) = 1 / 2 by norm_num] at this
  refine ⟨if p.1 = 0 then binary64.minC else p, q, ?_, ?_, ?_, hq0⟩
  · unfold floatNestedProbs
    rw [hN 0 e he0 hE0, hD, pick_eq]
    simp only [Fl.div, if_neg hS0.ne']
    rw [hp]
    by_cases h : p.1 = 0 <;> simp [guardZero, h, minComp_eq]
  · unfold floatNestedProbs
    rw [hN 1 _ hmin hE1, hD, pick_eq]
    simp only [Fl.div, if_neg hS0.ne']
    rw [hq]
    have : q.1 ≠ 0 := by intro h; rw [h] at hq0; norm_num at hq0
    simp [guardZero, this]
  · split_ifs
    · exact hmin73
    · exact hp1

end Pylogit
