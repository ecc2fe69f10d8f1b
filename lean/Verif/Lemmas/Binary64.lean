import Mathlib.Data.Set.Finite.Lattice
import Mathlib.Data.Set.Finite.Lemmas
import Mathlib.Analysis.SpecialFunctions.Pow.Real
import Mathlib.Analysis.Complex.ExponentialBounds
import Mathlib.Algebra.Order.Archimedean.Basic
import Verif.Lemmas.Float

/-!
# IEEE 754 binary64 with rounding to nearest, ties to even, is a floating point format

This shows that the laws of `FloatFormat` are those of the arithmetic that NumPy uses.
-/

namespace Pylogit

namespace Binary64

/-- The numbers with 53 significant bits and a least exponent (no greatest exponent: overflow is decided
afterwards). -/
def F : Set ℝ := {x | ∃ m e : ℤ, |m| < 2 ^ 53 ∧ -1074 ≤ e ∧ x = m * (2 : ℝ) ^ e}

/-- The significand of a number is even. -/
def EvenSig (x : ℝ) : Prop :=
  ∃ m e : ℤ, |m| < 2 ^ 53 ∧ (2 ^ 52 ≤ |m| ∨ e = -1074) ∧ -1074 ≤ e ∧ Even m ∧ x = m * (2 : ℝ) ^ e

theorem F_neg {x : ℝ} (h : x ∈ F) : -x ∈ F := by
  obtain ⟨m, e, h1, h2, rfl⟩ := h
  exact ⟨-m, e, by rwa [abs_neg], h2, by push_cast; ring⟩

theorem F_zero : (0 : ℝ) ∈ F := ⟨0, 0, by norm_num, by norm_num, by norm_num⟩

theorem F_pow {e : ℤ} (he : -1074 ≤ e) : (2 : ℝ) ^ e ∈ F := ⟨1, e, by norm_num, he, by norm_num⟩

theorem F_finite (K : ℕ) : (F ∩ Set.Icc (-(2 : ℝ) ^ K) (2 ^ K)).Finite := by
  have : (F ∩ Set.Icc (-(2 : ℝ) ^ K) (2 ^ K)) ⊆
      (fun p : ℤ × ℤ => (p.1 : ℝ) * (2 : ℝ) ^ p.2) ''
        (Set.Icc (-2 ^ 53) (2 ^ 53) ×ˢ Set.Icc (-1074) (K : ℤ)) := by
    rintro x ⟨⟨m, e, h1, h2, rfl⟩, hx1, hx2⟩
    by_cases hm : m = 0
    · refine ⟨(0, 0), ⟨⟨by norm_num, by norm_num⟩, ⟨by norm_num, by positivity⟩⟩, ?_⟩
      simp [hm]
    · refine ⟨(m, e), ⟨⟨(abs_le.1 h1.le).1, (abs_le.1 h1.le).2⟩, ⟨h2, ?_⟩⟩, rfl⟩
      by_contra hK
      push Not at hK
      change (K : ℤ) < e at hK
      have hm1 : (1 : ℝ) ≤ |(m : ℝ)| := by
        have := Int.one_le_abs hm
        exact_mod_cast this
      have habs : |(m : ℝ) * (2 : ℝ) ^ e| ≤ 2 ^ K := abs_le.2 ⟨hx1, hx2⟩
      rw [abs_mul, abs_of_pos (zpow_pos (by norm_num : (0 : ℝ) < 2) e)] at habs
      have h3 : (2 : ℝ) ^ (K : ℤ) < 2 ^ e := zpow_lt_zpow_right₀ (by norm_num) hK
      rw [zpow_natCast] at h3
      have h4 : (2 : ℝ) ^ e ≤ |(m : ℝ)| * 2 ^ e :=
        le_mul_of_one_le_left (zpow_pos (by norm_num) e).le hm1
      linarith
  exact Set.Finite.subset (((Set.finite_Icc _ _).prod (Set.finite_Icc _ _)).image _) this

theorem exists_pow_ge (x : ℝ) : ∃ K : ℕ, |x| ≤ 2 ^ K := by
  obtain ⟨K, hK⟩ := pow_unbounded_of_one_lt |x| (by norm_num : (1 : ℝ) < 2)
  exact ⟨K, hK.le⟩

theorem exists_lower (x : ℝ) : ∃ d ∈ F, d ≤ x ∧ ∀ f ∈ F, f ≤ x → f ≤ d := by
  obtain ⟨K, hK⟩ := exists_pow_ge x
  have hp : -(2 : ℝ) ^ K ∈ F := by
    have := F_neg (F_pow (e := K) (by omega))
    rwa [zpow_natCast] at this
  have hx := abs_le.1 hK
  have hfin : (F ∩ Set.Icc (-(2 : ℝ) ^ K) (2 ^ K) ∩ Set.Iic x).Finite :=
    (F_finite K).subset Set.inter_subset_left
  obtain ⟨d, ⟨⟨hd, hd1⟩, hdx⟩, hmax⟩ := Set.exists_max_image _ id hfin
    ⟨-(2 : ℝ) ^ K, ⟨hp, ⟨le_refl _, by have : (0 : ℝ) < 2 ^ K := by positivity
                                       linarith⟩⟩, hx.1⟩
  refine ⟨d, hd, hdx, fun f hf hfx => ?_⟩
  by_cases h : -(2 : ℝ) ^ K ≤ f
  · exact hmax f ⟨⟨hf, h, hfx.trans hx.2⟩, hfx⟩
  · exact (not_le.1 h).le.trans hd1.1

/-- The greatest number of the format at or below a real number. -/
noncomputable def lower (x : ℝ) : ℝ := (exists_lower x).choose

theorem lower_mem (x : ℝ) : lower x ∈ F := (exists_lower x).choose_spec.1
theorem lower_le (x : ℝ) : lower x ≤ x := (exists_lower x).choose_spec.2.1
theorem le_lower {f x : ℝ} (hf : f ∈ F) (h : f ≤ x) : f ≤ lower x :=
  (exists_lower x).choose_spec.2.2 f hf h

/-- The least number of the format at or above a real number. -/
noncomputable def upper (x : ℝ) : ℝ := -lower (-x)

theorem upper_mem (x : ℝ) : upper x ∈ F := F_neg (lower_mem _)
theorem le_upper (x : ℝ) : x ≤ upper x := by
  have := lower_le (-x); unfold upper; linarith
theorem upper_le {f x : ℝ} (hf : f ∈ F) (h : x ≤ f) : upper x ≤ f := by
  have := le_lower (F_neg hf) (neg_le_neg h); unfold upper; linarith

theorem lower_of_mem {x : ℝ} (h : x ∈ F) : lower x = x := le_antisymm (lower_le x) (le_lower h le_rfl)
theorem upper_of_mem {x : ℝ} (h : x ∈ F) : upper x = x := le_antisymm (upper_le h le_rfl) (le_upper x)

theorem upper_neg (x : ℝ) : upper (-x) = -lower x := by rw [upper, neg_neg]
theorem lower_neg (x : ℝ) : lower (-x) = -upper x := by rw [upper, neg_neg]

/-- Of two neighbours at equal distance, the lower is taken: it is the one with the even significand (or, to
have a rule in every case, the one closer to zero). -/
def TieDown (d u : ℝ) : Prop :=
  (EvenSig d ∧ ¬ EvenSig u) ∨ ((EvenSig d ↔ EvenSig u) ∧ |d| < |u|)

open Classical in
/-- Rounding to nearest, ties to even. -/
noncomputable def rnd (x : ℝ) : ℝ :=
  if x - lower x < upper x - x then lower x
  else if upper x - x < x - lower x then upper x
  else if TieDown (lower x) (upper x) then lower x else upper x

theorem rnd_cases (x : ℝ) :
    (rnd x = lower x ∧ x - lower x ≤ upper x - x) ∨ (rnd x = upper x ∧ upper x - x ≤ x - lower x) := by
  unfold rnd
  split_ifs with h1 h2 h3
  · exact Or.inl ⟨rfl, h1.le⟩
  · exact Or.inr ⟨rfl, h2.le⟩
  · exact Or.inl ⟨rfl, not_lt.1 h2⟩
  · exact Or.inr ⟨rfl, not_lt.1 h1⟩

theorem rnd_mem (x : ℝ) : rnd x ∈ F := by
  rcases rnd_cases x with ⟨h, -⟩ | ⟨h, -⟩ <;> rw [h]
  · exact lower_mem x
  · exact upper_mem x

theorem lower_le_rnd (x : ℝ) : lower x ≤ rnd x := by
  rcases rnd_cases x with ⟨h, -⟩ | ⟨h, -⟩ <;> rw [h]
  exact (lower_le x).trans (le_upper x)

theorem rnd_le_upper (x : ℝ) : rnd x ≤ upper x := by
  rcases rnd_cases x with ⟨h, -⟩ | ⟨h, -⟩ <;> rw [h]
  exact (lower_le x).trans (le_upper x)

theorem rnd_of_mem {x : ℝ} (h : x ∈ F) : rnd x = x := by
  rcases rnd_cases x with ⟨h', -⟩ | ⟨h', -⟩ <;> rw [h']
  · exact lower_of_mem h
  · exact upper_of_mem h

theorem rnd_mono : Monotone rnd := by
  intro x y hxy
  by_cases hf : ∃ f ∈ F, x ≤ f ∧ f ≤ y
  · obtain ⟨f, hf, h1, h2⟩ := hf
    exact (rnd_le_upper x).trans ((upper_le hf h1).trans ((le_lower hf h2).trans (lower_le_rnd y)))
  · push Not at hf
    have h1 : lower x = lower y := by
      refine le_antisymm (le_lower (lower_mem x) ((lower_le x).trans hxy)) ?_
      refine le_lower (lower_mem y) ?_
      by_contra h
      exact absurd (lower_le y) (not_le.2 (hf _ (lower_mem y) (not_le.1 h).le))
    have h2 : upper x = upper y := by
      refine le_antisymm (upper_le (upper_mem y) (hxy.trans (le_upper y))) ?_
      refine upper_le (upper_mem x) ?_
      exact (hf _ (upper_mem x) (le_upper x)).le
    rcases rnd_cases x with ⟨hx, hx'⟩ | ⟨hx, hx'⟩ <;> rcases rnd_cases y with ⟨hy, hy'⟩ | ⟨hy, hy'⟩
    · rw [hx, hy, h1]
    · rw [hx, hy, ← h2]; exact (lower_le x).trans (le_upper x)
    · have hxy' : x = y := le_antisymm hxy (by rw [h1, h2] at hx'; linarith)
      rw [hxy']
    · rw [hx, hy, h2]

theorem evenSig_neg (x : ℝ) : EvenSig (-x) ↔ EvenSig x := by
  have h : ∀ x, EvenSig x → EvenSig (-x) := by
    rintro x ⟨m, e, h1, h2, h3, h4, rfl⟩
    exact ⟨-m, e, by rwa [abs_neg], by rwa [abs_neg], h3, h4.neg, by push_cast; ring⟩
  exact ⟨fun hx => by simpa using h _ hx, h x⟩

theorem rnd_neg (x : ℝ) : rnd (-x) = -rnd x := by
  by_cases hx : lower x = upper x
  · have e : lower x = x := le_antisymm (lower_le x) (hx ▸ le_upper x)
    have hm : x ∈ F := e ▸ lower_mem x
    rw [rnd_of_mem hm, rnd_of_mem (F_neg hm)]
  · unfold rnd
    rw [lower_neg, upper_neg]
    have e1 : -x - -upper x = upper x - x := by ring
    have e2 : -lower x - -x = x - lower x := by ring
    rw [e1, e2]
    by_cases h1 : x - lower x < upper x - x
    · rw [if_pos h1, if_neg (by linarith), if_pos h1]
    · by_cases h2 : upper x - x < x - lower x
      · rw [if_pos h2, if_neg h1, if_pos h2]
      · rw [if_neg h2, if_neg h1, if_neg h1, if_neg h2]
        have hne : |lower x| ≠ |upper x| := by
          intro habs
          rcases abs_eq_abs.1 habs with h | h
          · exact hx h
          · have hx0 : x = 0 := by linarith [not_lt.1 h1, not_lt.1 h2]
            rw [hx0] at hx
            rw [lower_of_mem F_zero, upper_of_mem F_zero] at hx
            exact hx rfl
        have ht : TieDown (-upper x) (-lower x) ↔ ¬ TieDown (lower x) (upper x) := by
          unfold TieDown
          rw [evenSig_neg, evenSig_neg, abs_neg, abs_neg]
          have : |upper x| < |lower x| ↔ ¬ |lower x| < |upper x| :=
            ⟨fun h => not_lt.2 h.le, fun h => lt_of_le_of_ne (not_lt.1 h) (Ne.symm hne)⟩
          rw [this]
          tauto
        by_cases h3 : TieDown (lower x) (upper x)
        · rw [if_neg (fun h => ht.1 h h3), if_pos h3]
        · rw [if_pos (ht.2 h3), if_neg h3]

theorem F_int {k : ℤ} (hk : |k| ≤ 2 ^ 53) : (k : ℝ) ∈ F := by
  rcases lt_or_eq_of_le hk with h | h
  · exact ⟨k, 0, h, by norm_num, by simp⟩
  · rcases (abs_eq (by norm_num)).1 h with rfl | rfl
    · exact ⟨2 ^ 52, 1, by norm_num, by norm_num, by norm_num⟩
    · exact ⟨-2 ^ 52, 1, by norm_num, by norm_num, by norm_num⟩

/-- The largest finite binary64 number. -/
noncomputable def big : ℝ := (2 ^ 53 - 1) * (2 : ℝ) ^ (971 : ℤ)

theorem big_mem : big ∈ F :=
  ⟨2 ^ 53 - 1, 971, by norm_num, by norm_num, by rw [big]; push_cast; ring⟩

/-- The number after the largest finite one is `2^1024`. -/
theorem next_big {y : ℝ} (hy : y ∈ F) (h : big < y) : big + (2 : ℝ) ^ (971 : ℤ) ≤ y := by
  obtain ⟨m, e, h1, h2, rfl⟩ := hy
  have hpe : (0 : ℝ) < 2 ^ e := zpow_pos (by norm_num) e
  have hp : (0 : ℝ) < 2 ^ (971 : ℤ) := zpow_pos (by norm_num) _
  rw [big] at h ⊢
  have hm : (m : ℝ) ≤ 2 ^ 53 - 1 := by
    have : m ≤ 2 ^ 53 - 1 := by have := (abs_lt.1 h1).2; omega
    exact_mod_cast this
  have he : 971 < e := by
    by_contra hc
    have : (2 : ℝ) ^ e ≤ 2 ^ (971 : ℤ) := zpow_le_zpow_right₀ (by norm_num) (not_lt.1 hc)
    generalize (2 : ℝ) ^ (971 : ℤ) = P at *
    generalize (2 : ℝ) ^ e = Q at *
    nlinarith
  obtain ⟨k, rfl⟩ : ∃ k : ℕ, e = 971 + k := ⟨(e - 971).toNat, by omega⟩
  rw [zpow_add₀ (by norm_num), zpow_natCast] at h ⊢
  generalize (2 : ℝ) ^ (971 : ℤ) = P at *
  have h3 : (2 ^ 53 - 1 : ℝ) < m * 2 ^ k := by
    by_contra hc
    have := mul_le_mul_of_nonneg_right (not_lt.1 hc) hp.le
    linarith
  have h4 : (2 ^ 53 - 1 : ℤ) < m * 2 ^ k := by exact_mod_cast h3
  have h5 : (2 ^ 53 : ℤ) ≤ m * 2 ^ k := by omega
  have h6 : (2 ^ 53 : ℝ) ≤ m * 2 ^ k := by exact_mod_cast h5
  have := mul_le_mul_of_nonneg_right h6 hp.le
  linarith

theorem zpow_split (a b : ℤ) : (2 : ℝ) ^ (a + b) = 2 ^ a * 2 ^ b := zpow_add₀ (by norm_num) a b

theorem maxComp_le_pow : maxCompValue ≤ (2 : ℝ) ^ (1000 : ℤ) := by
  rw [maxCompValue, show (1000 : ℤ) = ((10 * 100 : ℕ) : ℤ) by norm_num, zpow_natCast, pow_mul,
    show 300 = 3 * 100 by norm_num, pow_mul]
  exact pow_le_pow_left₀ (by norm_num) (by norm_num) _

theorem maxComp_le_big : maxCompValue ≤ big := by
  refine maxComp_le_pow.trans ?_
  rw [big, show (1000 : ℤ) = 29 + 971 by norm_num, zpow_split]
  refine mul_le_mul_of_nonneg_right ?_ (zpow_pos (by norm_num) _).le
  norm_num

theorem four_le : (4 : ℝ) ≤ (2 : ℝ) ^ (971 : ℤ) := by
  calc (4 : ℝ) = 2 ^ (2 : ℤ) := by norm_num
    _ ≤ 2 ^ (971 : ℤ) := zpow_le_zpow_right₀ (by norm_num) (by norm_num)

theorem rnd_minComp : (2 : ℝ) ^ (-1000 : ℤ) ≤ rnd minCompValue := by
  have h : (2 : ℝ) ^ (-1000 : ℤ) ∈ F := F_pow (by norm_num)
  rw [← rnd_of_mem h]
  refine rnd_mono ?_
  rw [minCompValue, zpow_neg]
  exact inv_anti₀ (by positivity) maxComp_le_pow

theorem rnd_big_add_one : rnd (big + 1) ≤ big := by
  have hl : big ≤ lower (big + 1) := le_lower big_mem (by linarith)
  have h4 := four_le
  rcases rnd_cases (big + 1) with ⟨h, -⟩ | ⟨h, h'⟩
  · rw [h]
    by_contra hc
    have h0 := next_big (lower_mem _) (not_le.1 hc)
    have h1 := lower_le (big + 1)
    generalize (2 : ℝ) ^ (971 : ℤ) = P at *
    linarith
  · have hu : big < upper (big + 1) := lt_of_lt_of_le (by linarith) (le_upper _)
    have h0 := next_big (upper_mem _) hu
    generalize (2 : ℝ) ^ (971 : ℤ) = P at *
    linarith

end Binary64

open Binary64 in
/-- IEEE 754 binary64 arithmetic with the default rounding. -/
noncomputable def binary64 : FloatFormat where
  rnd := Binary64.rnd
  big := Binary64.big
  mono := rnd_mono
  idem := fun x => rnd_of_mem (rnd_mem x)
  neg := rnd_neg
  int := fun k hk => rnd_of_mem (F_int hk)
  maxComp_le := by
    rw [← rnd_of_mem big_mem]
    exact rnd_mono maxComp_le_big
  minComp_pos := lt_of_lt_of_le (zpow_pos (by norm_num : (0 : ℝ) < 2) (-1000)) rnd_minComp
  rnd_big := rnd_of_mem big_mem
  big_add_one := rnd_big_add_one

namespace Binary64

/-! ## Accuracy -/

theorem F_mul {k g : ℤ} (hk : |k| ≤ 2 ^ 53) (hg : -1074 ≤ g) : (k : ℝ) * (2 : ℝ) ^ g ∈ F := by
  rcases lt_or_eq_of_le hk with h | h
  · exact ⟨k, g, h, hg, rfl⟩
  · have e : (2 : ℝ) ^ (g + 1) = 2 ^ g * 2 := by rw [zpow_add₀ (by norm_num)]; norm_num
    rcases (abs_eq (by norm_num)).1 h with rfl | rfl
    · exact ⟨2 ^ 52, g + 1, by norm_num, by omega, by rw [e]; push_cast; ring⟩
    · exact ⟨-2 ^ 52, g + 1, by norm_num, by omega, by rw [e]; push_cast; ring⟩

theorem half_gap {x d u : ℝ} (hd : d ∈ F) (hu : u ∈ F) (h1 : d ≤ x) (h2 : x ≤ u) :
    |rnd x - x| ≤ (u - d) / 2 := by
  have a := le_lower hd h1
  have b := upper_le hu h2
  have c := lower_le x
  have e := le_upper x
  rw [abs_le]
  rcases rnd_cases x with ⟨h, h'⟩ | ⟨h, h'⟩ <;> rw [h] <;> constructor <;> linarith

/-- The grid of floats around a positive number. -/
theorem exists_grid {x : ℝ} (hx : 0 < x) : ∃ g k : ℤ, -1074 ≤ g ∧ 0 ≤ k ∧ k + 1 ≤ 2 ^ 53 ∧
    (k : ℝ) * 2 ^ g ≤ x ∧ x ≤ ((k + 1 : ℤ) : ℝ) * 2 ^ g ∧
    ((2 : ℝ) ^ g ≤ 2 ^ (-52 : ℤ) * x ∨ g = -1074) := by
  obtain ⟨e, he1, he2⟩ := exists_mem_Ico_zpow hx (by norm_num : (1 : ℝ) < 2)
  set g := max (e - 52) (-1074) with hg
  have hp : (0 : ℝ) < 2 ^ g := zpow_pos (by norm_num) g
  refine ⟨g, ⌊x / 2 ^ g⌋, le_max_right _ _, Int.floor_nonneg.2 (by positivity), ?_, ?_, ?_, ?_⟩
  · have h1 : x / 2 ^ g < 2 ^ (53 : ℤ) := by
      rw [div_lt_iff₀ hp, ← zpow_add₀ (by norm_num)]
      refine he2.trans_le (zpow_le_zpow_right₀ (by norm_num) ?_)
      have := le_max_left (e - 52) (-1074)
      omega
    have h2 : ((⌊x / 2 ^ g⌋ : ℤ) : ℝ) < ((2 ^ 53 : ℤ) : ℝ) := by
      refine (Int.floor_le _).trans_lt (h1.trans_le ?_)
      norm_num
    have := Int.cast_lt.1 h2
    omega
  · rw [← le_div_iff₀ hp]; exact Int.floor_le _
  · rw [← div_le_iff₀ hp]
    have := (Int.lt_floor_add_one (x / 2 ^ g)).le
    push_cast
    exact this
  · rcases le_total (-1074) (e - 52) with h | h
    · left
      have : g = e + -52 := by rw [hg, max_eq_left h]; ring
      rw [this, zpow_add₀ (by norm_num), mul_comm]
      exact mul_le_mul_of_nonneg_left he1 (zpow_pos (by norm_num) _).le
    · right; rw [hg, max_eq_right h]

theorem rnd_error {x : ℝ} (hx : 0 ≤ x) :
    |rnd x - x| ≤ (2 : ℝ) ^ (-53 : ℤ) * x + (2 : ℝ) ^ (-1075 : ℤ) := by
  rcases eq_or_lt_of_le hx with rfl | hx
  · rw [rnd_of_mem F_zero]
    have : (0 : ℝ) < 2 ^ (-1075 : ℤ) := zpow_pos (by norm_num) _
    simp
  · obtain ⟨g, k, hg, hk0, hk, h1, h2, h3⟩ := exists_grid hx
    have hd : (k : ℝ) * (2 : ℝ) ^ g ∈ F := F_mul (by rw [abs_of_nonneg hk0]; omega) hg
    have hu : ((k + 1 : ℤ) : ℝ) * (2 : ℝ) ^ g ∈ F := F_mul (by rw [abs_of_nonneg (by omega)]; omega) hg
    have h := half_gap hd hu h1 h2
    have e : (((k + 1 : ℤ) : ℝ) * 2 ^ g - k * (2 : ℝ) ^ g) / 2 = (2 : ℝ) ^ g / 2 := by push_cast; ring
    rw [e] at h
    refine h.trans ?_
    have hp : (0 : ℝ) < 2 ^ (-1075 : ℤ) := zpow_pos (by norm_num) _
    have hp' : (0 : ℝ) < 2 ^ (-53 : ℤ) := zpow_pos (by norm_num) _
    rcases h3 with h3 | h3
    · have : (2 : ℝ) ^ (-52 : ℤ) = 2 ^ (-53 : ℤ) * 2 := by
        rw [show (-52 : ℤ) = -53 + 1 by norm_num, zpow_add₀ (by norm_num)]; norm_num
      rw [this] at h3
      generalize (2 : ℝ) ^ (-53 : ℤ) = w at *
      generalize (2 : ℝ) ^ (-1075 : ℤ) = z at *
      nlinarith
    · have : (2 : ℝ) ^ (-1074 : ℤ) = 2 ^ (-1075 : ℤ) * 2 := by
        rw [show (-1074 : ℤ) = -1075 + 1 by norm_num, zpow_add₀ (by norm_num)]; norm_num
      rw [h3, this]
      have := mul_nonneg hp'.le hx.le
      linarith

/-- Every number of the format is a multiple of the least positive one. -/
theorem F_grid {x : ℝ} (hx : x ∈ F) : ∃ k : ℤ, x = k * (2 : ℝ) ^ (-1074 : ℤ) := by
  obtain ⟨m, e, -, he, rfl⟩ := hx
  obtain ⟨j, rfl⟩ : ∃ j : ℕ, e = j + -1074 := ⟨(e + 1074).toNat, by omega⟩
  refine ⟨m * 2 ^ j, ?_⟩
  rw [zpow_add₀ (by norm_num), zpow_natCast]
  push_cast
  ring

theorem rnd_add_error {a b : ℝ} (ha : a ∈ F) (hb : b ∈ F) (h : 0 ≤ a + b) :
    |rnd (a + b) - (a + b)| ≤ (2 : ℝ) ^ (-53 : ℤ) * (a + b) := by
  rcases eq_or_lt_of_le h with h | h
  · rw [← h, rnd_of_mem F_zero]; simp
  · obtain ⟨g, k, hg, hk0, hk, h1, h2, h3⟩ := exists_grid h
    have hd : (k : ℝ) * (2 : ℝ) ^ g ∈ F := F_mul (by rw [abs_of_nonneg hk0]; omega) hg
    have hu : ((k + 1 : ℤ) : ℝ) * (2 : ℝ) ^ g ∈ F := F_mul (by rw [abs_of_nonneg (by omega)]; omega) hg
    have hp' : (0 : ℝ) < 2 ^ (-53 : ℤ) := zpow_pos (by norm_num) _
    rcases h3 with h3 | h3
    · have h := half_gap hd hu h1 h2
      have e : (((k + 1 : ℤ) : ℝ) * 2 ^ g - k * (2 : ℝ) ^ g) / 2 = (2 : ℝ) ^ g / 2 := by push_cast; ring
      rw [e] at h
      refine h.trans ?_
      have : (2 : ℝ) ^ (-52 : ℤ) = 2 ^ (-53 : ℤ) * 2 := by
        rw [show (-52 : ℤ) = -53 + 1 by norm_num, zpow_add₀ (by norm_num)]; norm_num
      rw [this] at h3
      generalize (2 : ℝ) ^ (-53 : ℤ) = w at *
      nlinarith
    · obtain ⟨i, hi⟩ := F_grid ha
      obtain ⟨j, hj⟩ := F_grid hb
      have hs : a + b = ((i + j : ℤ) : ℝ) * (2 : ℝ) ^ (-1074 : ℤ) := by rw [hi, hj]; push_cast; ring
      have hpg : (0 : ℝ) < 2 ^ (-1074 : ℤ) := zpow_pos (by norm_num) _
      have hm : a + b ∈ F := by
        rw [hs]
        refine F_mul ?_ (by norm_num)
        rw [h3, hs] at h2
        rw [hs] at h
        have h4 := le_of_mul_le_mul_right h2 hpg
        have h5 := (mul_pos_iff_of_pos_right hpg).1 h
        have h6 : i + j ≤ k + 1 := by exact_mod_cast h4
        have h7 : 0 < i + j := by exact_mod_cast h5
        rw [abs_of_pos h7]
        omega
      rw [rnd_of_mem hm, sub_self, abs_zero]
      positivity

/-! ## Elementary functions -/

theorem exp_70_le : Real.exp 70 ≤ 2 ^ 101 := by
  have h := Real.exp_one_lt_d9.le
  calc Real.exp 70 = Real.exp 1 ^ 70 := by rw [← Real.exp_nat_mul]; norm_num
    _ ≤ 2.7182818286 ^ 70 := pow_le_pow_left₀ (Real.exp_pos _).le h _
    _ ≤ 2 ^ 101 := by norm_num

theorem exp_700_le : Real.exp 700 ≤ (2 : ℝ) ^ (1010 : ℤ) := by
  calc Real.exp 700 = Real.exp 70 ^ 10 := by rw [← Real.exp_nat_mul]; norm_num
    _ ≤ (2 ^ 101) ^ 10 := pow_le_pow_left₀ (Real.exp_pos _).le exp_70_le _
    _ = (2 : ℝ) ^ (1010 : ℤ) := by
      rw [← pow_mul, ← zpow_natCast]; norm_num

theorem le_exp_700 : (2 : ℝ) ^ (1008 : ℤ) ≤ Real.exp 700 := by
  have h100 : (2 : ℝ) ^ 144 ≤ Real.exp 100 := by
    have h := Real.exp_one_gt_d9.le
    calc (2 : ℝ) ^ 144 ≤ 2.7182818283 ^ 100 := by norm_num
      _ ≤ Real.exp 1 ^ 100 := pow_le_pow_left₀ (by norm_num) h _
      _ = Real.exp 100 := by rw [← Real.exp_nat_mul]; norm_num
  calc (2 : ℝ) ^ (1008 : ℤ) = (2 ^ 144) ^ 7 := by rw [← pow_mul, ← zpow_natCast]; norm_num
    _ ≤ Real.exp 100 ^ 7 := pow_le_pow_left₀ (by positivity) h100 _
    _ = Real.exp 700 := by rw [← Real.exp_nat_mul]; norm_num

theorem pow_le_big {e : ℤ} (he : e ≤ 1023) : (2 : ℝ) ^ e ≤ big := by
  rw [big]
  calc (2 : ℝ) ^ e ≤ 2 ^ (1023 : ℤ) := zpow_le_zpow_right₀ (by norm_num) he
    _ = 2 ^ (52 : ℤ) * 2 ^ (971 : ℤ) := by rw [← zpow_split]; norm_num
    _ ≤ _ := mul_le_mul_of_nonneg_right (by norm_num) (zpow_pos (by norm_num) _).le

/-- A power of two as a binary64 number. -/
noncomputable def powNum (e : ℤ) (h1 : -1074 ≤ e) (h2 : e ≤ 1023) : binary64.Num :=
  ⟨(2 : ℝ) ^ e, rnd_of_mem (F_pow h1), by
    rw [abs_of_pos (zpow_pos (by norm_num) _)]; exact pow_le_big h2⟩

/-- The number nearest to a real between -1000 and 1000 (others are replaced by the bounds). -/
noncomputable def nearNum (r : ℝ) : binary64.Num :=
  ⟨rnd (max (-1000) (min 1000 r)), rnd_of_mem (rnd_mem _), by
    have h : ∀ k : ℤ, |k| ≤ 2 ^ 53 → rnd k = k := fun k hk => rnd_of_mem (F_int hk)
    have e1 : rnd 1000 = 1000 := by have := h 1000 (by norm_num); push_cast at this; exact this
    have e2 : rnd (-1000) = -1000 := by rw [rnd_neg, e1]
    have h1 : -1000 ≤ rnd (max (-1000) (min 1000 r)) := by
      rw [← e2]; exact rnd_mono (by rw [e2]; exact le_max_left _ _)
    have h2 : rnd (max (-1000) (min 1000 r)) ≤ 1000 := by
      rw [← e1]; exact rnd_mono (by rw [e1]; exact max_le (by norm_num) (min_le_left _ _))
    have h3 : (1000 : ℝ) ≤ big := by
      refine le_trans ?_ (pow_le_big (e := 10) (by norm_num))
      norm_num
    exact (abs_le.2 ⟨h1, h2⟩).trans h3⟩

theorem nearNum_ge (r : ℝ) : -1000 ≤ (nearNum r).1 := by
  have e1 : rnd (-1000) = -1000 := by
    have := rnd_of_mem (F_int (k := -1000) (by norm_num)); push_cast at this; exact this
  change -1000 ≤ rnd _
  rw [← e1]
  exact rnd_mono (by rw [e1]; exact le_max_left _ _)

theorem nearNum_nonneg {r : ℝ} (h : 0 ≤ r) : 0 ≤ (nearNum r).1 := by
  change 0 ≤ rnd _
  rw [← rnd_of_mem F_zero]
  exact rnd_mono (le_max_of_le_right (le_min (by norm_num) h))

theorem nearNum_nonpos {r : ℝ} (h : r ≤ 0) : (nearNum r).1 ≤ 0 := by
  change rnd _ ≤ 0
  rw [← rnd_of_mem F_zero]
  exact rnd_mono (max_le (by norm_num) ((min_le_right _ _).trans h))

theorem exp_mid {x : ℝ} (h : |x| ≤ 700) :
    ∃ y : binary64.Num, Fl.round binary64 (Real.exp x) = .fin y ∧
      (2 : ℝ) ^ (-1010 : ℤ) ≤ y.1 ∧ y.1 ≤ (2 : ℝ) ^ (1010 : ℤ) := by
  have h1 : (2 : ℝ) ^ (-1010 : ℤ) ≤ Real.exp x := by
    have : Real.exp (-700) ≤ Real.exp x := Real.exp_le_exp.2 (abs_le.1 h).1
    refine le_trans ?_ this
    rw [Real.exp_neg, zpow_neg]
    exact inv_anti₀ (Real.exp_pos _) exp_700_le
  have h2 : Real.exp x ≤ (2 : ℝ) ^ (1010 : ℤ) :=
    (Real.exp_le_exp.2 (abs_le.1 h).2).trans exp_700_le
  obtain ⟨y, hy, -, h3, h4⟩ := Fl.round_between (a := powNum (-1010) (by norm_num) (by norm_num))
    (b := powNum 1010 (by norm_num) (by norm_num)) h1 h2
  exact ⟨y, hy, h3, h4⟩

theorem mem_F (x : binary64.Num) : x.1 ∈ F := by
  have h := rnd_mem x.1
  rwa [show rnd x.1 = x.1 from x.2.1] at h

/-- Binary64 numbers less than half the least positive one are rounded to zero. -/
theorem rnd_tiny {x : ℝ} (h0 : 0 ≤ x) (h : x < (2 : ℝ) ^ (-1075 : ℤ)) : rnd x = 0 := by
  have e : (2 : ℝ) ^ (-1074 : ℤ) = 2 ^ (-1075 : ℤ) * 2 := by
    rw [show (-1074 : ℤ) = -1075 + 1 by norm_num, zpow_add₀ (by norm_num)]; norm_num
  have hp : (0 : ℝ) < 2 ^ (-1075 : ℤ) := zpow_pos (by norm_num) _
  have hu : upper x ≤ (2 : ℝ) ^ (-1074 : ℤ) := upper_le (F_pow le_rfl) (by rw [e]; linarith)
  have h2 : |rnd x - x| ≤ (2 : ℝ) ^ (-1074 : ℤ) / 2 := by
    have := half_gap F_zero (F_pow (e := -1074) le_rfl) h0 (by rw [e]; linarith)
    rwa [sub_zero] at this
  obtain ⟨k, hk⟩ := F_grid (rnd_mem x)
  have h3 : rnd x < (2 : ℝ) ^ (-1074 : ℤ) := by
    have := (abs_le.1 h2).2
    rw [e] at this ⊢
    linarith
  have h4 : 0 ≤ rnd x := by rw [← rnd_of_mem F_zero]; exact rnd_mono h0
  have hp' : (0 : ℝ) < 2 ^ (-1074 : ℤ) := zpow_pos (by norm_num) _
  rw [hk] at h3 h4 ⊢
  have h5 : (k : ℝ) < 1 := by
    by_contra hc
    have := mul_le_mul_of_nonneg_right (not_lt.1 hc) hp'.le
    rw [_root_.one_mul] at this
    linarith
  have h6 : (0 : ℝ) ≤ k := nonneg_of_mul_nonneg_left h4 hp'
  have h7 : k < 1 := by exact_mod_cast h5
  have h8 : 0 ≤ k := by exact_mod_cast h6
  have : k = 0 := by omega
  rw [this]; simp

theorem F_after_one {f : ℝ} (hf : f ∈ F) (h : 1 < f) : 1 + (2 : ℝ) ^ (-52 : ℤ) ≤ f := by
  obtain ⟨m, e, hm, -, rfl⟩ := hf
  have hm' : (m : ℝ) < 2 ^ (53 : ℤ) := by
    have : m < 2 ^ 53 := lt_of_le_of_lt (le_abs_self m) hm
    calc (m : ℝ) < ((2 ^ 53 : ℤ) : ℝ) := by exact_mod_cast this
      _ = 2 ^ (53 : ℤ) := by norm_num
  have hp : (0 : ℝ) < 2 ^ e := zpow_pos (by norm_num) e
  have he : -52 ≤ e := by
    by_contra hc
    have h1 : (2 : ℝ) ^ e ≤ 2 ^ (-53 : ℤ) := zpow_le_zpow_right₀ (by norm_num) (by omega)
    have h2 : (m : ℝ) * 2 ^ e ≤ 2 ^ (53 : ℤ) * 2 ^ (-53 : ℤ) :=
      mul_le_mul hm'.le h1 hp.le (by positivity)
    rw [← zpow_add₀ (by norm_num)] at h2
    norm_num at h2
    norm_num at h
    linarith
  obtain ⟨j, rfl⟩ : ∃ j : ℕ, e = j + -52 := ⟨(e + 52).toNat, by omega⟩
  rw [zpow_add₀ (by norm_num), zpow_natCast, ← mul_assoc] at h ⊢
  have hw : (0 : ℝ) < 2 ^ (-52 : ℤ) := zpow_pos (by norm_num) _
  have h1 : (1 : ℝ) = 2 ^ (52 : ℤ) * 2 ^ (-52 : ℤ) := by rw [← zpow_add₀ (by norm_num)]; norm_num
  have h2 : ((2 ^ 52 : ℤ) : ℝ) < ((m * 2 ^ j : ℤ) : ℝ) := by
    have : (2 : ℝ) ^ (52 : ℤ) * 2 ^ (-52 : ℤ) < m * 2 ^ j * 2 ^ (-52 : ℤ) := by rw [← h1]; exact h
    have := lt_of_mul_lt_mul_right this hw.le
    push_cast
    norm_num at this ⊢
    exact this
  have h3 : (2 ^ 52 : ℤ) + 1 ≤ m * 2 ^ j := by exact_mod_cast h2
  have h4 : (((2 ^ 52 : ℤ) + 1 : ℤ) : ℝ) ≤ ((m * 2 ^ j : ℤ) : ℝ) := by exact_mod_cast h3
  have h5 := mul_le_mul_of_nonneg_right h4 hw.le
  push_cast at h5
  refine le_trans ?_ h5
  norm_num

/-- Numbers slightly above one are rounded to one. -/
theorem rnd_near_one {y : ℝ} (h0 : 0 ≤ y) (h : y < (2 : ℝ) ^ (-53 : ℤ)) : rnd (1 + y) = 1 := by
  have e : (2 : ℝ) ^ (-52 : ℤ) = 2 ^ (-53 : ℤ) * 2 := by
    rw [show (-52 : ℤ) = -53 + 1 by norm_num, zpow_add₀ (by norm_num)]; norm_num
  have h1 : (1 : ℝ) ∈ F := by simpa using F_int (k := 1) (by norm_num)
  have hl : 1 ≤ lower (1 + y) := le_lower h1 (by linarith)
  have hlt : ¬ 1 < rnd (1 + y) := by
    intro hc
    rcases rnd_cases (1 + y) with ⟨h2, h3⟩ | ⟨h2, h3⟩
    · have := F_after_one (rnd_mem _) hc
      have := lower_le (1 + y)
      rw [h2] at *
      rw [e] at *
      linarith
    · have := F_after_one (rnd_mem _) hc
      rw [h2] at *
      rw [e] at *
      linarith
  refine le_antisymm (not_lt.1 hlt) ?_
  rw [← rnd_of_mem h1]
  exact rnd_mono (by rw [rnd_of_mem h1]; linarith)

theorem exp_38 : Real.exp (-38) < (2 : ℝ) ^ (-54 : ℤ) := by
  rw [Real.exp_neg, zpow_neg]
  refine inv_strictAnti₀ (by positivity) ?_
  have h := Real.exp_one_gt_d9.le
  calc (2 : ℝ) ^ (54 : ℤ) < 2.7182818283 ^ 38 := by norm_num
    _ ≤ Real.exp 1 ^ 38 := pow_le_pow_left₀ (by norm_num) h _
    _ = Real.exp 38 := by rw [← Real.exp_nat_mul]; norm_num

end Binary64

open Binary64 in
/-- The elementary functions of binary64 arithmetic when they are correctly rounded.  (Logarithms of finite
binary64 numbers are between -1000 and 1000.) -/
noncomputable def roundedLib : MathLib binary64 where
  exp x := Fl.round binary64 (Real.exp x.1)
  log x := nearNum (Real.log x.1)
  log1p x := nearNum (Real.log (1 + x.1))
  pow x s := Fl.round binary64 (x.1 ^ s.1)
  exp_nonneg x := by
    rcases Fl.round_above (a := binary64.zero) (r := Real.exp x.1) (Real.exp_pos _).le with
      h | ⟨y, h, -, h0⟩
    · exact Or.inl h
    · exact Or.inr ⟨y, h, h0⟩
  exp_mid x hx := by
    obtain ⟨y, hy, h, -⟩ := Binary64.exp_mid hx
    exact ⟨y, hy, (zpow_pos (by norm_num) _).trans_le h⟩
  exp_one_le x hx := by
    rcases Fl.round_above (a := binary64.one) (r := Real.exp x.1) (Real.one_le_exp hx) with
      h | ⟨y, h, -, h0⟩
    · exact Or.inl h
    · exact Or.inr ⟨y, h, h0⟩
  exp_le_one x hx := by
    obtain ⟨y, h, -, h0, h1⟩ := Fl.round_between (a := binary64.zero) (b := binary64.one)
      (r := Real.exp x.1) (Real.exp_pos _).le (Real.exp_le_one_iff.2 hx)
    exact ⟨y, h, h0, h1⟩
  log_nonpos x h0 h1 := nearNum_nonpos (Real.log_nonpos h0.le h1)
  log_ge x _ := nearNum_ge _
  log1p_nonneg x hx := nearNum_nonneg (Real.log_nonneg (by linarith))
  one_le_pow x s hx hs := by
    rcases Fl.round_above (a := binary64.one) (r := x.1 ^ s.1) (Real.one_le_rpow hx hs) with
      h | ⟨y, h, -, h0⟩
    · exact Or.inl h
    · exact Or.inr ⟨y, h, h0⟩

end Pylogit
