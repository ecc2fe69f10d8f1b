import Mathlib.Algebra.BigOperators.Field
import Verif.Props.Float
import Verif.Lemmas.Binary64

/-!
# C95: computed probabilities sum to one up to rounding, unless the denominator overflows
-/

namespace Pylogit

open Spec Fl

variable {A : FloatFormat} {n : ℕ} {O : Type} [DecidableEq O]

theorem foldl_accurate {u η : ℝ} (hA : A.Accurate u η) (l : List A.Num) (hl : ∀ x ∈ l, 0 ≤ x.1)
    (acc : A.Num) (h0 : 0 ≤ acc.1) {S : A.Num}
    (hS : (l.map Fl.fin).foldl Fl.add (.fin acc) = .fin S) :
    (1 - u) ^ l.length * (acc.1 + (l.map fun x : A.Num => x.1).sum) ≤ S.1 ∧
      S.1 ≤ (1 + u) ^ l.length * (acc.1 + (l.map fun x : A.Num => x.1).sum) := by
  have hu0 := hA.unit_nonneg
  have hu1 := hA.unit_lt
  induction l generalizing acc with
  | nil =>
    have : acc = S := Fl.fin.inj hS
    simp [this]
  | cons x l ih =>
    have hx := hl x (by simp)
    have hl' : ∀ y ∈ l, 0 ≤ y.1 := fun y hy => hl y (by simp [hy])
    have hsum : 0 ≤ (l.map fun x : A.Num => x.1).sum :=
      List.sum_nonneg fun y hy => by
        obtain ⟨z, hz, rfl⟩ := List.mem_map.1 hy
        exact hl' z hz
    rw [List.map_cons, List.foldl_cons] at hS
    have hadd : (Fl.fin acc).add (.fin x) = .round A (acc.1 + x.1) := rfl
    rw [hadd] at hS
    have hne : ∀ w : Fl A, (∀ y, w ≠ .fin y) → ∀ l : List A.Num, ∀ y,
        (l.map Fl.fin).foldl Fl.add w ≠ .fin y := by
      intro w hw l
      induction l with
      | nil => exact hw
      | cons z l ih' =>
        rw [List.map_cons, List.foldl_cons]
        cases w with
        | fin y => exact absurd rfl (hw y)
        | pinf => exact ih'
        | ninf => exact ih'
        | nan => exact ih'
    rcases round_cases A (acc.1 + x.1) with ⟨h, -⟩ | ⟨h, -⟩ | ⟨y, h, hy⟩
    · rw [h] at hS; exact absurd hS (hne _ (by simp) _ _)
    · rw [h] at hS; exact absurd hS (hne _ (by simp) _ _)
    · rw [h] at hS
      have he := abs_le.1 (hA.add_error acc x h0 hx)
      rw [← hy] at he
      have hy0 : 0 ≤ y.1 := by
        have := mul_nonneg (sub_nonneg.2 hu1.le) (add_nonneg h0 hx)
        linarith [he.1]
      obtain ⟨h1, h2⟩ := ih hl' y hy0 hS
      rw [List.map_cons, List.sum_cons, List.length_cons, pow_succ, pow_succ]
      generalize (l.map fun x : A.Num => x.1).sum = T at *
      constructor
      · refine le_trans ?_ h1
        rw [mul_assoc]
        refine mul_le_mul_of_nonneg_left ?_ (pow_nonneg (sub_nonneg.2 hu1.le) _)
        nlinarith [he.1]
      · refine h2.trans ?_
        rw [mul_assoc]
        refine mul_le_mul_of_nonneg_left ?_ (pow_nonneg (by linarith) _)
        nlinarith [he.2]

theorem sum_rowsOfObs (obs : Fin n → O) (o : O) (p : Fin n → ℝ) :
    ((rowsOfObs obs o).map p).sum = ∑ r with obs r = o, p r := by
  unfold rowsOfObs
  rw [Finset.sum_filter]
  rw [← List.sum_ofFn (f := fun r => if obs r = o then p r else 0), List.ofFn_eq_map]
  induction List.finRange n with
  | nil => rfl
  | cons r l ih =>
    rw [List.filter_cons]
    by_cases h : obs r = o <;> simp [h, ih]

theorem length_rowsOfObs (obs : Fin n → O) (o : O) :
    (rowsOfObs obs o).length = Finset.card {r | obs r = o} := by
  have := sum_rowsOfObs obs o fun _ => 1
  rw [List.map_const', List.sum_replicate, Finset.sum_const, nsmul_eq_mul, nsmul_eq_mul, mul_one,
    mul_one] at this
  exact_mod_cast this

/-- **C95**.  In floating point arithmetic with rounding to nearest, as long as the denominator of an observation
with `m` rows does not overflow, its probabilities are numbers whose sum is between `(1-u)/(1+u)^m - m η`
and `(1+u)/(1-u)^m + m (η + 1e-300)`. -/
theorem float_probs_sum (L : MathLib A) {u η : ℝ} (hA : A.Accurate u η) (obs : Fin n → O)
    (t : Fin n → Fl A) (o : O) (ho : ∃ r, obs r = o) (ht : ∀ s, obs s = o → t s ≠ .nan)
    (hd : IsFinite (floatDenominator L obs t o)) (m : ℕ)
    (hm : m = Finset.card {r | obs r = o}) :
    ∃ p : Fin n → A.Num, (∀ r, obs r = o → floatLongProbs L obs t r = .fin (p r)) ∧
      (1 - u) / (1 + u) ^ m - m * η ≤ ∑ r with obs r = o, (p r).1 ∧
      ∑ r with obs r = o, (p r).1 ≤
        (1 + u) / (1 - u) ^ m + m * (η + A.rnd minCompValue) := by
  have hu0 := hA.unit_nonneg
  have hu1 := hA.unit_lt
  obtain ⟨S, hS⟩ := hd
  have hex : ∀ r, ∃ e : A.Num, obs r = o → (t r).clip.exp L = .fin e ∧ 0 < e.1 := by
    intro r
    by_cases h : obs r = o
    · obtain ⟨e, he⟩ := exp_clip L (ht r h)
      exact ⟨e, fun _ => he⟩
    · exact ⟨A.zero, fun h' => absurd h' h⟩
  choose e he using hex
  have hsum : (((rowsOfObs obs o).map e).map Fl.fin).foldl Fl.add (.fin A.zero) = .fin S := by
    rw [← hS, floatDenominator, Fl.sum, Fl.round_zero, List.map_map]
    congr 1
    refine List.map_congr_left fun r hr => ?_
    rw [Fl.one_mul, (he r (mem_rowsOfObs.1 hr)).1]
    rfl
  have hacc := foldl_accurate hA ((rowsOfObs obs o).map e) (by
    intro x hx
    obtain ⟨r, hr, rfl⟩ := List.mem_map.1 hx
    exact (he r (mem_rowsOfObs.1 hr)).2.le) A.zero le_rfl hsum
  rw [List.length_map, length_rowsOfObs, ← hm, List.map_map,
    show ((fun x : A.Num => x.1) ∘ e : Fin n → ℝ) = fun r => (e r).1 from rfl, sum_rowsOfObs, show A.zero.1 = 0 from rfl, _root_.zero_add] at hacc
  set E := ∑ r with obs r = o, (e r).1 with hE
  have hEpos : 0 < E := by
    obtain ⟨r, hr⟩ := ho
    exact Finset.sum_pos (fun s hs => (he s (Finset.mem_filter.1 hs).2).2) ⟨r, by simp [hr]⟩
  have hSpos : 0 < S.1 :=
    lt_of_lt_of_le (mul_pos (pow_pos (by linarith) _) hEpos) hacc.1
  have hp : ∀ r, ∃ p : A.Num, obs r = o → floatLongProbs L obs t r = .fin p ∧
      (1 - u) * ((e r).1 / S.1) - η ≤ p.1 ∧
      p.1 ≤ (1 + u) * ((e r).1 / S.1) + (η + A.rnd minCompValue) := by
    intro r
    by_cases h : obs r = o
    · subst h
      obtain ⟨he1, he0⟩ := he r rfl
      have hq : 0 ≤ (e r).1 / S.1 := (div_pos he0 hSpos).le
      obtain ⟨p, hp, hp0, -⟩ := div_spec he0 (floatDenominator_atLeast L ht rfl he1)
      have hp' : p.1 = A.rnd ((e r).1 / S.1) := by
        rw [hS] at hp
        simp only [Fl.div, if_neg hSpos.ne'] at hp
        rcases round_cases A ((e r).1 / S.1) with ⟨h, -⟩ | ⟨h, -⟩ | ⟨y, h, hy⟩
        · rw [h] at hp; cases hp
        · rw [h] at hp; cases hp
        · rw [h] at hp; rw [← Fl.fin.inj hp, hy]
      have herr := abs_le.1 (hA.rnd_error _ hq)
      rw [← hp'] at herr
      have hmin := A.minComp_pos
      have heta := hA.eta_nonneg
      unfold floatLongProbs
      rw [pick_eq, he1, hp]
      simp only [guardZero]
      by_cases hz : p.1 = 0
      · refine ⟨A.minC, fun _ => ⟨by rw [if_pos hz, minComp_eq], ?_, ?_⟩⟩
        · change _ ≤ A.rnd minCompValue
          rw [hz] at herr
          nlinarith [herr.1]
        · change A.rnd minCompValue ≤ _
          have := mul_nonneg (by linarith : (0 : ℝ) ≤ 1 + u) hq
          linarith
      · refine ⟨p, fun _ => ⟨by rw [if_neg hz], by nlinarith [herr.1], by nlinarith [herr.2]⟩⟩
    · exact ⟨A.zero, fun h' => absurd h' h⟩
  choose p hp using hp
  have hcard : ∑ r with obs r = o, (1 : ℝ) = m := by simp [hm]
  have hEd : ∑ r with obs r = o, (e r).1 / S.1 = E / S.1 := by rw [Finset.sum_div]
  refine ⟨p, fun r hr => (hp r hr).1, ?_, ?_⟩
  · have h1 : ∑ r with obs r = o, ((1 - u) * ((e r).1 / S.1) - η) ≤ ∑ r with obs r = o, (p r).1 :=
      Finset.sum_le_sum fun r hr => (hp r (Finset.mem_filter.1 hr).2).2.1
    rw [Finset.sum_sub_distrib, ← Finset.mul_sum, hEd] at h1
    have h2 : ∑ r with obs r = o, η = m * η := by
      rw [← hcard, Finset.sum_mul]; simp
    rw [h2] at h1
    refine le_trans ?_ h1
    have h3 : 1 / (1 + u) ^ m ≤ E / S.1 := by
      rw [div_le_div_iff₀ (pow_pos (by linarith) _) hSpos]
      linarith [hacc.2]
    have h4 := mul_le_mul_of_nonneg_left h3 (sub_nonneg.2 hu1.le)
    rw [mul_one_div] at h4
    linarith
  · have h1 : ∑ r with obs r = o, (p r).1 ≤
        ∑ r with obs r = o, ((1 + u) * ((e r).1 / S.1) + (η + A.rnd minCompValue)) :=
      Finset.sum_le_sum fun r hr => (hp r (Finset.mem_filter.1 hr).2).2.2
    rw [Finset.sum_add_distrib, ← Finset.mul_sum, hEd] at h1
    have h2 : ∑ r with obs r = o, (η + A.rnd minCompValue) = m * (η + A.rnd minCompValue) := by
      rw [← hcard, Finset.sum_mul]; simp
    rw [h2] at h1
    refine h1.trans ?_
    have h3 : E / S.1 ≤ 1 / (1 - u) ^ m := by
      rw [div_le_div_iff₀ hSpos (pow_pos (by linarith) _)]
      linarith [hacc.1]
    have h4 := mul_le_mul_of_nonneg_left h3 (by linarith : (0 : ℝ) ≤ 1 + u)
    rw [mul_one_div] at h4
    linarith

/-! ## IEEE 754 binary64 -/

theorem binary64_accurate : binary64.Accurate ((2 : ℝ) ^ (-53 : ℤ)) ((2 : ℝ) ^ (-1075 : ℤ)) where
  unit_nonneg := (zpow_pos (by norm_num) _).le
  unit_lt := by norm_num
  eta_nonneg := (zpow_pos (by norm_num) _).le
  rnd_error x hx := Binary64.rnd_error hx
  add_error a b ha hb := Binary64.rnd_add_error (Binary64.mem_F a) (Binary64.mem_F b) (add_nonneg ha hb)

/-- The exponential function does not exceed `2^1010` on the interval of clipped utilities (`e^700` is less
than that). -/
def ExpBounded (L : MathLib binary64) : Prop :=
  ∀ x : binary64.Num, |x.1| ≤ 700 → ∃ y : binary64.Num, L.exp x = .fin y ∧ y.1 ≤ (2 : ℝ) ^ (1010 : ℤ)

theorem roundedLib_bounded : ExpBounded roundedLib := fun _ hx => by
  obtain ⟨y, hy, -, h⟩ := Binary64.exp_mid hx
  exact ⟨y, hy, h⟩

theorem foldl_finite (l : List binary64.Num) (k : ℕ) (hk : k + l.length ≤ 8192)
    (hl : ∀ x ∈ l, 0 ≤ x.1 ∧ x.1 ≤ (2 : ℝ) ^ (1010 : ℤ)) (acc : binary64.Num) (h0 : 0 ≤ acc.1)
    (h1 : acc.1 ≤ k * (2 : ℝ) ^ (1010 : ℤ)) :
    IsFinite ((l.map Fl.fin).foldl Fl.add (.fin acc)) := by
  induction l generalizing k acc with
  | nil => exact ⟨acc, rfl⟩
  | cons x l ih =>
    obtain ⟨hx0, hx1⟩ := hl x (by simp)
    rw [List.length_cons] at hk
    have hmem : (((k + 1 : ℕ) : ℤ) : ℝ) * (2 : ℝ) ^ (1010 : ℤ) ∈ Binary64.F :=
      Binary64.F_mul (by rw [abs_of_nonneg (by positivity)]; push_cast; omega) (by norm_num)
    have hbig : (((k + 1 : ℕ) : ℤ) : ℝ) * (2 : ℝ) ^ (1010 : ℤ) ≤ Binary64.big := by
      refine le_trans ?_ (Binary64.pow_le_big (e := 13 + 1010) (by norm_num))
      rw [zpow_add₀ (by norm_num)]
      refine mul_le_mul_of_nonneg_right ?_ (zpow_pos (by norm_num) _).le
      have : ((k + 1 : ℕ) : ℝ) ≤ (8192 : ℕ) := by exact_mod_cast (by omega : k + 1 ≤ 8192)
      refine le_trans (b := (8192 : ℝ)) (by exact_mod_cast this) (by norm_num)
    let b : binary64.Num := ⟨(((k + 1 : ℕ) : ℤ) : ℝ) * (2 : ℝ) ^ (1010 : ℤ), Binary64.rnd_of_mem hmem, by
      rw [abs_of_nonneg (by positivity)]; exact hbig⟩
    obtain ⟨y, hy, -, hy0, hy1⟩ := Fl.round_between (a := binary64.zero) (b := b)
      (r := acc.1 + x.1) (add_nonneg h0 hx0) (by
        change _ ≤ (((k + 1 : ℕ) : ℤ) : ℝ) * (2 : ℝ) ^ (1010 : ℤ)
        clear_value b
        clear b hmem hbig ih hl
        generalize (2 : ℝ) ^ (1010 : ℤ) = w at *
        push_cast
        linarith)
    rw [List.map_cons, List.foldl_cons]
    have e : (Fl.fin acc).add (.fin x) = .fin y := hy
    rw [e]
    refine ih (k + 1) (by omega) (fun z hz => hl z (by simp [hz])) y hy0 ?_
    have hy1 : y.1 ≤ (((k + 1 : ℕ) : ℤ) : ℝ) * (2 : ℝ) ^ (1010 : ℤ) := hy1
    rwa [Int.cast_natCast] at hy1

/-- **C95**.  In binary64 arithmetic the probabilities of every observation with at most 8192 rows sum to one within
`1e-11`, however large or small the transformed utilities are. -/
theorem binary64_probs_sum (L : MathLib binary64) (hL : ExpBounded L) (obs : Fin n → O)
    (t : Fin n → Fl binary64) (o : O) (ho : ∃ r, obs r = o) (ht : ∀ s, obs s = o → t s ≠ .nan)
    (hm : Finset.card {r | obs r = o} ≤ 8192) :
    ∃ p : Fin n → binary64.Num, (∀ r, obs r = o → floatLongProbs L obs t r = .fin (p r)) ∧
      |∑ r with obs r = o, (p r).1 - 1| ≤ 1e-11 := by
  have hfin : IsFinite (floatDenominator L obs t o) := by
    have hex : ∀ r, ∃ e : binary64.Num, obs r = o → (t r).clip.exp L = .fin e ∧ 0 ≤ e.1 ∧
        e.1 ≤ (2 : ℝ) ^ (1010 : ℤ) := by
      intro r
      by_cases h : obs r = o
      · obtain ⟨c, hc, hc7⟩ := clip_spec (ht r h)
        obtain ⟨e, he, h0⟩ := L.exp_mid c hc7
        obtain ⟨e', he', h1⟩ := hL c hc7
        have : e = e' := Fl.fin.inj (he.symm.trans he')
        subst this
        exact ⟨e, fun _ => ⟨by rw [hc]; exact he, h0.le, h1⟩⟩
      · exact ⟨binary64.zero, fun h' => absurd h' h⟩
    choose e he using hex
    have := foldl_finite ((rowsOfObs obs o).map e) 0 (by
      rw [List.length_map, length_rowsOfObs]; omega) (by
      intro x hx
      obtain ⟨r, hr, rfl⟩ := List.mem_map.1 hx
      exact (he r (mem_rowsOfObs.1 hr)).2) binary64.zero le_rfl (by simp [FloatFormat.zero])
    rw [floatDenominator, Fl.sum, Fl.round_zero]
    rw [List.map_map] at this
    have hc : (rowsOfObs obs o).map (Fl.fin ∘ e) =
        (rowsOfObs obs o).map fun r => (Fl.round binary64 1).mul ((t r).clip.exp L) := by
      refine List.map_congr_left fun r hr => ?_
      rw [Fl.one_mul, (he r (mem_rowsOfObs.1 hr)).1]
      rfl
    rwa [hc] at this
  obtain ⟨p, hp, h1, h2⟩ := float_probs_sum L binary64_accurate obs t o ho ht hfin _ rfl
  refine ⟨p, hp, ?_⟩
  generalize Finset.card {r | obs r = o} = m at *
  generalize ∑ r with obs r = o, (p r).1 = s at *
  have hmr : (m : ℝ) ≤ 8192 := by exact_mod_cast hm
  have hmin : binary64.rnd minCompValue ≤ (2 : ℝ) ^ (-900 : ℤ) := by
    rw [← Binary64.rnd_of_mem (Binary64.F_pow (e := -900) (by norm_num))]
    refine Binary64.rnd_mono ?_
    have e : (2 : ℝ) ^ (-900 : ℤ) = ((2 ^ 9) ^ 100)⁻¹ := by
      rw [zpow_neg, ← pow_mul, ← zpow_natCast]; norm_num
    have e' : minCompValue = ((10 ^ 3) ^ 100)⁻¹ := by
      rw [minCompValue, ← pow_mul]
    rw [e, e']
    exact inv_anti₀ (by positivity) (pow_le_pow_left₀ (by norm_num) (by norm_num) _)
  have heta : (2 : ℝ) ^ (-1075 : ℤ) ≤ (2 : ℝ) ^ (-900 : ℤ) :=
    zpow_le_zpow_right₀ (by norm_num) (by norm_num)
  have h900 : (2 : ℝ) ^ (-900 : ℤ) ≤ (2 : ℝ) ^ (-60 : ℤ) :=
    zpow_le_zpow_right₀ (by norm_num) (by norm_num)
  have h60 : (2 : ℝ) ^ (-60 : ℤ) ≤ 1e-18 := by norm_num
  have heta0 : (0 : ℝ) < (2 : ℝ) ^ (-1075 : ℤ) := zpow_pos (by norm_num) _
  have hmin0 := binary64.minComp_pos
  have heta := heta.trans (h900.trans h60)
  have hmin := hmin.trans (h900.trans h60)
  clear h900 h60
  have hu : (2 : ℝ) ^ (-53 : ℤ) ≤ 1.2e-16 := by norm_num
  have hu0 : (0 : ℝ) < (2 : ℝ) ^ (-53 : ℤ) := zpow_pos (by norm_num) _
  generalize (2 : ℝ) ^ (-1075 : ℤ) = η at *
  generalize binary64.rnd minCompValue = μ at *
  generalize (2 : ℝ) ^ (-53 : ℤ) = u at *
  have hm0 : (0 : ℝ) ≤ m := Nat.cast_nonneg m
  have hmu : m * u ≤ 1e-12 := by nlinarith
  have hber : 1 - m * u ≤ (1 - u) ^ m := by
    have := one_add_mul_le_pow (a := -u) (by linarith) m
    rw [← sub_eq_add_neg] at this
    linarith
  have hlow : 1 - m * u ≤ 1 / (1 + u) ^ m := by
    rw [le_div_iff₀ (pow_pos (by linarith) _)]
    calc (1 - m * u) * (1 + u) ^ m ≤ (1 - u) ^ m * (1 + u) ^ m :=
          mul_le_mul_of_nonneg_right hber (pow_nonneg (by linarith) _)
      _ = (1 - u ^ 2) ^ m := by rw [← mul_pow]; ring_nf
      _ ≤ 1 := pow_le_one₀ (by nlinarith) (by nlinarith)
  rw [abs_le]
  constructor
  · have e1 : (1 - u) / (1 + u) ^ m = (1 - u) * (1 / (1 + u) ^ m) := by ring
    rw [e1] at h1
    have h3 := mul_le_mul_of_nonneg_left hlow (by linarith : (0 : ℝ) ≤ 1 - u)
    have h4 : m * η ≤ 8192 * 1e-18 := mul_le_mul hmr (by linarith) heta0.le (by norm_num)
    nlinarith
  · have h3 : (1 + u) / (1 - u) ^ m ≤ (1 + u) / (1 - m * u) :=
      div_le_div_of_nonneg_left (by linarith) (by linarith) hber
    have h4 : (1 + u) / (1 - m * u) ≤ 1 + 5e-12 := by
      rw [div_le_iff₀ (by linarith)]
      nlinarith
    have h5 : m * (η + μ) ≤ 8192 * 2e-18 := mul_le_mul hmr (by linarith) (by linarith) (by norm_num)
    linarith

/-- C95: a table it applies to, with utilities beyond all clipping. -/
example : ∃ p : Fin 3 → binary64.Num,
    (∀ r, floatLongProbs roundedLib (fun _ : Fin 3 => ()) ![.pinf, .ninf, .round binary64 2] r = .fin (p r)) ∧
      |∑ r, (p r).1 - 1| ≤ 1e-11 := by
  obtain ⟨p, h1, h2⟩ := binary64_probs_sum roundedLib roundedLib_bounded (fun _ : Fin 3 => ())
    ![.pinf, .ninf, .round binary64 2] () ⟨0, rfl⟩ (by
      intro s _
      fin_cases s
      · simp
      · simp
      · exact Fl.round_ne_nan _ _) (by simp)
  exact ⟨p, fun r => h1 r rfl, by simpa using h2⟩

/-! ## Overflow of the denominator -/

theorem roundedLib_700 : ∃ e : binary64.Num, Fl.exp roundedLib (.fin binary64.n700) = .fin e ∧
    (2 : ℝ) ^ (1008 : ℤ) ≤ e.1 := by
  have hx : |binary64.n700.1| ≤ 700 := by norm_num [FloatFormat.n700]
  obtain ⟨y, hy, -⟩ := Binary64.exp_mid hx
  refine ⟨y, hy, ?_⟩
  have h7 : binary64.n700.1 = 700 := rfl
  rw [h7] at hy
  rcases Fl.round_above (a := Binary64.powNum 1008 (by norm_num) (by norm_num))
    (r := Real.exp 700) Binary64.le_exp_700 with h | ⟨z, h, -, hz⟩
  · rw [h] at hy; cases hy
  · rw [h] at hy
    rw [← Fl.fin.inj hy]; exact hz

theorem roundedLib_neg700 : ∃ e : binary64.Num, Fl.exp roundedLib (.fin binary64.neg700) = .fin e ∧
    0 < e.1 ∧ e.1 ≤ (2 : ℝ) ^ (-1008 : ℤ) := by
  have hx : |binary64.neg700.1| ≤ 700 := by norm_num [FloatFormat.neg700]
  obtain ⟨y, hy, h0, -⟩ := Binary64.exp_mid hx
  refine ⟨y, hy, (zpow_pos (by norm_num) _).trans_le h0, ?_⟩
  have h7 : binary64.neg700.1 = -700 := rfl
  rw [h7] at hy
  have hle : Real.exp (-700) ≤ (2 : ℝ) ^ (-1008 : ℤ) := by
    rw [Real.exp_neg, zpow_neg]
    exact inv_anti₀ (zpow_pos (by norm_num) _) Binary64.le_exp_700
  obtain ⟨z, h, -, -, hz⟩ := Fl.round_between (a := binary64.zero)
    (b := Binary64.powNum (-1008) (by norm_num) (by norm_num)) (Real.exp_pos (-700)).le hle
  rw [h] at hy
  rw [← Fl.fin.inj hy]; exact hz

theorem foldl_overflow (l : List (Fl binary64)) (k : ℕ) (hk : k + l.length ≤ 2 ^ 53)
    (hl : ∀ x ∈ l, ∃ y : binary64.Num, x = .fin y ∧ (2 : ℝ) ^ (1008 : ℤ) ≤ y.1) (acc : Fl binary64)
    (h : AtLeast (k * (2 : ℝ) ^ (1008 : ℤ)) acc) :
    AtLeast (((k + l.length : ℕ) : ℝ) * (2 : ℝ) ^ (1008 : ℤ)) (l.foldl Fl.add acc) := by
  induction l generalizing k acc with
  | nil => simpa using h
  | cons x l ih =>
    rw [List.length_cons] at hk
    obtain ⟨y, rfl, hy⟩ := hl x (by simp)
    rw [List.foldl_cons, List.length_cons, show k + (l.length + 1) = k + 1 + l.length by ring]
    refine ih (k + 1) (by omega) (fun z hz => hl z (by simp [hz])) _ ?_
    rcases h with rfl | ⟨a, rfl, ha⟩
    · exact Or.inl rfl
    · have hmem : (((k + 1 : ℕ) : ℤ) : ℝ) * (2 : ℝ) ^ (1008 : ℤ) ∈ Binary64.F :=
        Binary64.F_mul (by rw [abs_of_nonneg (by positivity)]; push_cast; omega) (by norm_num)
      have hr : (((k + 1 : ℕ) : ℤ) : ℝ) * (2 : ℝ) ^ (1008 : ℤ) ≤ binary64.rnd (a.1 + y.1) := by
        rw [← Binary64.rnd_of_mem hmem]
        refine Binary64.rnd_mono ?_
        generalize (2 : ℝ) ^ (1008 : ℤ) = w at *
        push_cast
        linarith
      have h0 : (0 : ℝ) ≤ (((k + 1 : ℕ) : ℤ) : ℝ) * (2 : ℝ) ^ (1008 : ℤ) := by positivity
      rcases round_cases binary64 (a.1 + y.1) with ⟨h, -⟩ | ⟨-, h⟩ | ⟨z, h, hz⟩
      · exact Or.inl h
      · have := binary64.one_le_big
        linarith
      · refine Or.inr ⟨z, h, ?_⟩
        rw [hz]
        exact_mod_cast hr

/-- **C95 fails without the bound on the number of rows**: when an observation has 65536 rows or more whose
transformed utilities all reach 700, the denominator overflows and each probability is reported as `1e-300`
(rounded), so that they sum to practically nothing. -/
theorem float_probs_overflow (obs : Fin n → O) (t : Fin n → Fl binary64) (o : O)
    (ht : ∀ s, obs s = o → t s = .pinf ∨ ∃ y : binary64.Num, t s = .fin y ∧ 700 ≤ y.1)
    (hm : 65536 ≤ Finset.card {r | obs r = o}) (hm' : Finset.card {r | obs r = o} ≤ 2 ^ 53)
    (r : Fin n) (hr : obs r = o) : floatLongProbs roundedLib obs t r = .minComp binary64 := by
  have hclip : ∀ s, obs s = o → (t s).clip = .fin binary64.n700 := by
    intro s hs
    rcases ht s hs with h | ⟨y, h, hy⟩
    · rw [h]; simp [clip, lt]
    · rw [h]
      simp only [clip, round_700, round_neg700, lt]
      have h1 : binary64.n700.1 = 700 := rfl
      have h2 : binary64.neg700.1 = -700 := rfl
      rw [h1, h2]
      split_ifs with h3 h4
      · rfl
      · linarith
      · exact congrArg _ (Subtype.ext (le_antisymm (not_lt.1 h3) hy))
  obtain ⟨e, he, he1⟩ := roundedLib_700
  have hden : floatDenominator roundedLib obs t o = .pinf := by
    have h := foldl_overflow ((rowsOfObs obs o).map fun r =>
      (Fl.round binary64 1).mul ((t r).clip.exp roundedLib)) 0 (by
        rw [List.length_map, length_rowsOfObs]; omega) (by
        intro x hx
        obtain ⟨s, hs, rfl⟩ := List.mem_map.1 hx
        exact ⟨e, by rw [Fl.one_mul, hclip s (mem_rowsOfObs.1 hs), he], he1⟩) (.fin binary64.zero)
      (Or.inr ⟨binary64.zero, rfl, by simp [FloatFormat.zero]⟩)
    rw [List.length_map, length_rowsOfObs, _root_.zero_add] at h
    rw [floatDenominator, Fl.sum, Fl.round_zero]
    rcases h with h | ⟨y, -, hy⟩
    · exact h
    · exfalso
      have h1 : (65536 : ℝ) ≤ (Finset.card {r | obs r = o} : ℝ) := by exact_mod_cast hm
      have h2 : y.1 ≤ Binary64.big := (abs_le.1 y.2.2).2
      have h3 : Binary64.big < 65536 * (2 : ℝ) ^ (1008 : ℤ) := by
        rw [Binary64.big, show (1008 : ℤ) = 37 + 971 by norm_num, zpow_add₀ (by norm_num), ← mul_assoc]
        exact mul_lt_mul_of_pos_right (by norm_num) (zpow_pos (by norm_num) _)
      have h4 := mul_le_mul_of_nonneg_right h1 (zpow_pos (by norm_num : (0 : ℝ) < 2) 1008).le
      exact absurd (h3.trans_le (h4.trans (hy.trans h2))) (lt_irrefl _)
  unfold floatLongProbs
  rw [hr, hden, pick_eq, hclip r hr, he]
  simp [Fl.div, guardZero, FloatFormat.zero]

/-- A table with an overflowing denominator. -/
example (r : Fin 65536) :
    floatLongProbs roundedLib (fun _ => ()) (fun _ => .pinf) r = .minComp binary64 :=
  float_probs_overflow (fun _ => ()) _ () (fun _ _ => Or.inl rfl) (by simp) (by simp) r rfl

/-- **C19 fails in floating point arithmetic**: with utilities 700 and -700 the probability of the second
alternative is reported as `1e-300` among all probabilities, but as zero among the probabilities of chosen
alternatives. -/
theorem float_chosen_underflow :
    let t : Fin 2 → Fl binary64 := ![.round binary64 700, .round binary64 (-700)]
    floatLongProbs roundedLib (fun _ => ()) t 1 = .minComp binary64 ∧
      floatChosenProbs roundedLib (fun _ => ()) t [1] () = .round binary64 0 := by
  intro t
  have hn : ∀ s, t s ≠ .nan := fun s => by fin_cases s <;> exact Fl.round_ne_nan _ _
  have c0 : (t 0).clip = .fin binary64.n700 := by
    simp [t, clip, lt, FloatFormat.n700, FloatFormat.neg700]
  have c1 : (t 1).clip = .fin binary64.neg700 := by
    simp [t, clip, lt, FloatFormat.n700, FloatFormat.neg700]
  obtain ⟨e0, h0, l0⟩ := roundedLib_700
  obtain ⟨e1, h1, l1, u1⟩ := roundedLib_neg700
  have hd := floatDenominator_atLeast roundedLib (obs := fun _ : Fin 2 => ()) (t := t) (o := ())
    (fun s _ => hn s) (r := 0) rfl (by rw [c0]; exact h0)
  have hq : (Fl.fin e1).div (floatDenominator roundedLib (fun _ : Fin 2 => ()) t ()) =
      .round binary64 0 := by
    rcases hd with h | ⟨S, h, hS⟩
    · rw [h]; rfl
    · rw [h]
      have hp : (0 : ℝ) < 2 ^ (1008 : ℤ) := zpow_pos (by norm_num) _
      have hS' : (2 : ℝ) ^ (1008 : ℤ) ≤ S.1 := l0.trans hS
      have hS0 : 0 < S.1 := hp.trans_le hS'
      simp only [Fl.div, if_neg hS0.ne']
      have hz : binary64.rnd (e1.1 / S.1) = 0 := by
        refine Binary64.rnd_tiny (div_nonneg l1.le hS0.le) ?_
        calc e1.1 / S.1 ≤ (2 : ℝ) ^ (-1008 : ℤ) / (2 : ℝ) ^ (1008 : ℤ) :=
              div_le_div₀ (zpow_pos (by norm_num) _).le u1 hp hS'
          _ = (2 : ℝ) ^ (-2016 : ℤ) := by rw [← zpow_sub₀ (by norm_num)]; norm_num
          _ < _ := zpow_lt_zpow_right₀ (by norm_num) (by norm_num)
      have hb : |binary64.rnd (e1.1 / S.1)| ≤ binary64.big := by
        rw [hz, abs_zero]; linarith [binary64.one_le_big]
      rw [Fl.round_of_abs_le hb, Fl.round_zero]
      exact congrArg _ (Subtype.ext hz)
  constructor
  · unfold floatLongProbs
    rw [pick_eq, c1, h1, hq]
    simp [guardZero, FloatFormat.zero]
  · unfold floatChosenProbs
    simp only [Fl.sum, List.map_cons, List.map_nil, List.foldl_cons, List.foldl_nil, Fl.one_mul,
      Fl.zero_add, c1, h1]
    exact hq

end Pylogit
