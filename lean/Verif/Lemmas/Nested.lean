import Verif.Model.Nested
import Verif.Spec.Nested
import Verif.Lemmas.Choice

/-! # Helper lemmas: the nested model computes the textbook quantities -/

set_option linter.unusedSectionVars false

open Finset Matrix

namespace Pylogit

open Spec

variable {R O K N : Type} [Fintype R] [Fintype O] [Fintype K] [Fintype N] [DecidableEq O]
  [DecidableEq N]

theorem guardZero_of_ne {x : ℝ} (h : x ≠ 0) : guardZero x = x := if_neg h

theorem guardZero_zero : guardZero 0 = minCompValue := if_pos rfl

@[simp] theorem mem_nestRows {f : R → O} {g : R → N} {o : O} {m : N} {s : R} :
    s ∈ nestRows f g o m ↔ f s = o ∧ g s = m := by simp [nestRows]

theorem mem_availNests {f : R → O} {g : R → N} {o : O} {m : N} :
    m ∈ availNests f g o ↔ ∃ s, f s = o ∧ g s = m := by
  simp [availNests, Finset.Nonempty]

theorem nestSum_nonneg (f : R → O) (g : R → N) (V : R → ℝ) (lam : N → ℝ) (o : O) (m : N) :
    0 ≤ nestSum f g V lam o m := Finset.sum_nonneg fun _ _ => (Real.exp_pos _).le

theorem nestSum_pos {f : R → O} {g : R → N} (V : R → ℝ) (lam : N → ℝ) {o : O} {m : N}
    (h : m ∈ availNests f g o) : 0 < nestSum f g V lam o m := by
  obtain ⟨s, h1, h2⟩ := mem_availNests.1 h
  exact Finset.sum_pos (fun _ _ => Real.exp_pos _) ⟨s, by simp [h1, h2]⟩

theorem nestRows_eq_empty {f : R → O} {g : R → N} {o : O} {m : N} (h : m ∉ availNests f g o) :
    nestRows f g o m = ∅ := by
  rw [Finset.eq_empty_iff_forall_notMem]
  intro s hs
  exact h (mem_availNests.2 ⟨s, mem_nestRows.1 hs⟩)

theorem nestSum_eq_zero {f : R → O} {g : R → N} (V : R → ℝ) (lam : N → ℝ) {o : O} {m : N}
    (h : m ∉ availNests f g o) : nestSum f g V lam o m = 0 := by
  rw [nestSum, nestRows_eq_empty h, Finset.sum_empty]

theorem own_avail (f : R → O) (g : R → N) (r : R) : g r ∈ availNests f g (f r) :=
  mem_availNests.2 ⟨r, rfl, rfl⟩

/-- The denominator of the nest probabilities is positive for an observation with rows. -/
theorem nestDenom_pos (f : R → O) (g : R → N) (V : R → ℝ) (lam : N → ℝ) (r : R) :
    0 < ∑ m ∈ availNests f g (f r), nestSum f g V lam (f r) m ^ lam m :=
  Finset.sum_pos (fun _ hm => Real.rpow_pos_of_pos (nestSum_pos V lam hm) _) ⟨_, own_avail f g r⟩

/-- Summing over all nests or over the available ones is the same for positive coefficients. -/
theorem nestDenom_all (f : R → O) (g : R → N) (V : R → ℝ) {lam : N → ℝ} (hl : ∀ m, 0 < lam m)
    (o : O) : ∑ m, nestSum f g V lam o m ^ lam m =
      ∑ m ∈ availNests f g o, nestSum f g V lam o m ^ lam m := by
  symm
  refine Finset.sum_subset (Finset.subset_univ _) fun m _ hm => ?_
  rw [nestSum_eq_zero V lam hm, Real.zero_rpow (hl m).ne']

variable {M : Matrix R O ℝ} {f : R → O} {Q : Matrix R N ℝ} {g : R → N}

theorem longNestCoefs_eq (hQ : Indicates Q g) (lam : N → ℝ) (r : R) :
    longNestCoefs Q lam r = lam (g r) := mulVec_indicates hQ lam r

theorem expScaledIndex_eq (hQ : Indicates Q g) (lam : N → ℝ) (β : K → ℝ) (X : Matrix R K ℝ) (r : R) :
    expScaledIndex lam β X Q r = Real.exp ((X *ᵥ β) r / lam (g r)) := by
  rw [expScaledIndex, longNestCoefs_eq hQ, guardZero_of_ne (Real.exp_pos _).ne']

/-- A product with a transposed membership matrix sums over the rows of an observation. -/
theorem transpose_mul_indicates {Q' : Type} (hM : Indicates M f) (B : Matrix R Q' ℝ) (o : O)
    (q : Q') : (Mᵀ * B) o q = ∑ r ∈ rowsOf f o, B r q := by
  simp only [Matrix.mul_apply, transpose_apply, hM _ _, rowsOf, ite_mul, one_mul, zero_mul,
    Finset.sum_filter]

theorem sum_rowsOf_nest (hQ : Indicates Q g) (x : R → ℝ) (o : O) (m : N) :
    ∑ r ∈ rowsOf f o, Q r m * x r = ∑ r ∈ nestRows f g o m, x r := by
  simp only [rowsOf, nestRows, Finset.sum_filter, hQ _ _]
  refine Finset.sum_congr rfl fun r _ => ?_
  by_cases h1 : f r = o <;> by_cases h2 : g r = m <;> simp [h1, h2]

theorem indExpSums_eq (hM : Indicates M f) (hQ : Indicates Q g) (lam : N → ℝ) (β : K → ℝ)
    (X : Matrix R K ℝ) (o : O) (m : N) :
    indExpSumsPerNest lam β X M Q o m = nestSum f g (X *ᵥ β) lam o m := by
  rw [indExpSumsPerNest, transpose_mul_indicates hM]
  simp only [Matrix.of_apply]
  rw [sum_rowsOf_nest hQ, nestSum]
  refine Finset.sum_congr rfl fun r hr => ?_
  rw [expScaledIndex_eq hQ, (mem_nestRows.1 hr).2]

omit [Fintype R] in
theorem mul_indicates {Q' : Type} (hM : Indicates M f) (B : Matrix O Q' ℝ) (r : R)
    (q : Q') : (M * B) r q = B (f r) q := by
  simp [Matrix.mul_apply, hM _ _]

omit [Fintype R] in
theorem sum_nest_indicates (hQ : Indicates Q g) (x : N → ℝ) (r : R) :
    ∑ m, Q r m * x m = x (g r) := by
  simp [hQ _ _]

theorem longExpSums_eq (hM : Indicates M f) (hQ : Indicates Q g) (lam : N → ℝ) (β : K → ℝ)
    (X : Matrix R K ℝ) (r : R) :
    longExpSums lam β X M Q r = nestSum f g (X *ᵥ β) lam (f r) (g r) := by
  rw [longExpSums, sum_nest_indicates hQ, mul_indicates hM, indExpSums_eq hM hQ]

theorem indDenom_eq (hM : Indicates M f) (hQ : Indicates Q g) {lam : N → ℝ} (hl : ∀ m, 0 < lam m)
    (β : K → ℝ) (X : Matrix R K ℝ) (r : R) :
    indDenom lam β X M Q (f r) =
      ∑ m ∈ availNests f g (f r), nestSum f g (X *ᵥ β) lam (f r) m ^ lam m := by
  simp only [indDenom, indExpSums_eq hM hQ]
  rw [nestDenom_all f g _ hl, guardZero_of_ne (nestDenom_pos f g _ _ r).ne']

theorem nestProb_pos {f : R → O} {g : R → N} (V : R → ℝ) (lam : N → ℝ) (r : R) {m : N}
    (h : m ∈ availNests f g (f r)) : 0 < nestProb f g V lam (f r) m :=
  div_pos (Real.rpow_pos_of_pos (nestSum_pos V lam h) _) (nestDenom_pos f g V lam r)

theorem condProb_pos (f : R → O) (g : R → N) (V : R → ℝ) (lam : N → ℝ) (r : R) :
    0 < condProb f g V lam r :=
  div_pos (Real.exp_pos _) (nestSum_pos V lam (own_avail f g r))

theorem nestedProb_pos (f : R → O) (g : R → N) (V : R → ℝ) (lam : N → ℝ) (r : R) :
    0 < nestedProb f g V lam r :=
  mul_pos (nestProb_pos V lam r (own_avail f g r)) (condProb_pos f g V lam r)

theorem nestProb_sum (f : R → O) (g : R → N) (V : R → ℝ) (lam : N → ℝ) (r : R) :
    ∑ m ∈ availNests f g (f r), nestProb f g V lam (f r) m = 1 := by
  simp only [nestProb]
  rw [← Finset.sum_div, div_self (nestDenom_pos f g V lam r).ne']

theorem condProb_sum {f : R → O} {g : R → N} (V : R → ℝ) (lam : N → ℝ) {o : O} {m : N}
    (h : m ∈ availNests f g o) : ∑ r ∈ nestRows f g o m, condProb f g V lam r = 1 := by
  have : ∀ r ∈ nestRows f g o m, condProb f g V lam r =
      Real.exp (V r / lam m) / nestSum f g V lam o m := by
    intro r hr
    obtain ⟨h1, h2⟩ := mem_nestRows.1 hr
    rw [condProb, h1, h2]
  rw [Finset.sum_congr rfl this, ← Finset.sum_div]
  exact div_self (nestSum_pos V lam h).ne'

theorem sum_by_nests (f : R → O) (g : R → N) (x : R → ℝ) (o : O) :
    ∑ r ∈ rowsOf f o, x r = ∑ m ∈ availNests f g o, ∑ r ∈ nestRows f g o m, x r := by
  rw [← Finset.sum_fiberwise_of_maps_to (s := rowsOf f o) (t := availNests f g o) (g := g)
    (fun r hr => by rw [← mem_rowsOf.1 hr]; exact own_avail f g r)]
  refine Finset.sum_congr rfl fun m _ => Finset.sum_congr ?_ fun _ _ => rfl
  ext r; simp

theorem nestedProb_sum (f : R → O) (g : R → N) (V : R → ℝ) (lam : N → ℝ) (r : R) :
    ∑ s ∈ rowsOf f (f r), nestedProb f g V lam s = 1 := by
  rw [sum_by_nests f g]
  refine Eq.trans (Finset.sum_congr rfl fun m hm => ?_) (nestProb_sum f g V lam r)
  have : ∀ s ∈ nestRows f g (f r) m, nestedProb f g V lam s =
      nestProb f g V lam (f r) m * condProb f g V lam s := by
    intro s hs
    obtain ⟨h1, h2⟩ := mem_nestRows.1 hs
    rw [nestedProb, h1, h2]
  rw [Finset.sum_congr rfl this, ← Finset.mul_sum, condProb_sum V lam hm, mul_one]

/-- The probability the code computes is the textbook one. -/
theorem nestedLongProbs_eq (hM : Indicates M f) (hQ : Indicates Q g) {lam : N → ℝ}
    (hl : ∀ m, 0 < lam m) (β : K → ℝ) (X : Matrix R K ℝ) (r : R) :
    nestedLongProbs lam β X M Q r = nestedProb f g (X *ᵥ β) lam r := by
  have hS := nestSum_pos (X *ᵥ β) lam (own_avail f g r)
  have hnum : longNumerators lam β X M Q r = Real.exp ((X *ᵥ β) r / lam (g r)) *
      nestSum f g (X *ᵥ β) lam (f r) (g r) ^ (lam (g r) - 1) := by
    rw [longNumerators, expScaledIndex_eq hQ, longExpSums_eq hM hQ, longNestCoefs_eq hQ]
    exact guardZero_of_ne (mul_pos (Real.exp_pos _) (Real.rpow_pos_of_pos hS _)).ne'
  have hval : longNumerators lam β X M Q r / (M *ᵥ indDenom lam β X M Q) r =
      nestedProb f g (X *ᵥ β) lam r := by
    rw [hnum, mulVec_indicates hM, indDenom_eq hM hQ hl, nestedProb, nestProb, condProb,
      Real.rpow_sub_one hS.ne']
    field_simp
  rw [nestedLongProbs, hval, guardZero_of_ne (nestedProb_pos f g _ _ r).ne']

theorem probGivenNest_eq (hM : Indicates M f) (hQ : Indicates Q g) (lam : N → ℝ)
    (β : K → ℝ) (X : Matrix R K ℝ) (r : R) :
    probGivenNest lam β X M Q r = condProb f g (X *ᵥ β) lam r := by
  rw [probGivenNest, expScaledIndex_eq hQ, longExpSums_eq hM hQ]
  exact guardZero_of_ne (condProb_pos f g _ _ r).ne'

theorem nestChoiceProbs_eq (hM : Indicates M f) (hQ : Indicates Q g) {lam : N → ℝ}
    (hl : ∀ m, 0 < lam m) (β : K → ℝ) (X : Matrix R K ℝ) (r : R) (m : N) :
    nestChoiceProbs lam β X M Q (f r) m =
      if m ∈ availNests f g (f r) then nestProb f g (X *ᵥ β) lam (f r) m else minCompValue := by
  rw [nestChoiceProbs, Matrix.of_apply, indExpSums_eq hM hQ, indDenom_eq hM hQ hl]
  split_ifs with h
  · exact guardZero_of_ne (nestProb_pos _ _ r h).ne'
  · rw [nestSum_eq_zero _ _ h, Real.zero_rpow (hl m).ne', zero_div, guardZero_zero]

theorem obsToChosenNests_eq {choice : R → ℝ} {c : O → R} (hM : Indicates M f) (hQ : Indicates Q g)
    (hc : OneChoice f choice c) (o : O) (m : N) :
    obsToChosenNests choice M Q o m = if g (c o) = m then 1 else 0 := by
  rw [obsToChosenNests, transpose_mul_indicates hM]
  simp only [Matrix.of_apply]
  rw [Finset.sum_eq_single (c o)]
  · rw [hc.one, hQ]; simp
  · intro r hr hne
    rw [hc.zero r (by rw [mem_rowsOf.1 hr]; exact hne), mul_zero]
  · intro h; exact absurd (mem_rowsOf.2 (hc.mem o)) h

theorem longChosenNest_eq {choice : R → ℝ} {c : O → R} (hM : Indicates M f) (hQ : Indicates Q g)
    (hc : OneChoice f choice c) (r : R) :
    longChosenNest choice M Q r = if g (c (f r)) = g r then 1 else 0 := by
  rw [longChosenNest, sum_nest_indicates hQ, mul_indicates hM, obsToChosenNests_eq hM hQ hc]

theorem naturalize_eq (raw : N → ℝ) (m : N) :
    naturalizeNestCoefs raw m = 1 / (1 + Real.exp (-raw m)) := by
  have : 0 < 1 / (1 + Real.exp (-raw m)) := by positivity
  rw [naturalizeNestCoefs]
  simp only [neg_mul, one_mul]
  exact guardZero_of_ne this.ne'

theorem naturalize_pos (raw : N → ℝ) (m : N) : 0 < naturalizeNestCoefs raw m := by
  rw [naturalize_eq]; positivity

theorem naturalize_lt_one (raw : N → ℝ) (m : N) : naturalizeNestCoefs raw m < 1 := by
  rw [naturalize_eq, div_lt_one (by positivity)]
  linarith [Real.exp_pos (-raw m)]

end Pylogit
