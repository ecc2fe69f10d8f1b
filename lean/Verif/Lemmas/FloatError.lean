import Verif.Props.FloatNested
import Verif.Spec.FloatMnl

/-!
# Rounding errors of binary64 arithmetic
-/

namespace Pylogit

open Spec Fl

/-- Relative rounding error. -/
noncomputable def uu : ℝ := (2 : ℝ) ^ (-53 : ℤ)

/-- Error of underflow. -/
noncomputable abbrev eta : ℝ := tiny

theorem uu_pos : 0 < uu := by unfold uu; exact zpow_pos (by norm_num) _
theorem eta_pos : 0 < eta := by unfold eta tiny; exact zpow_pos (by norm_num) _
theorem ulp_eq : ulp = 2 * uu := by
  rw [ulp, uu, show (-52 : ℤ) = -53 + 1 by norm_num, zpow_add₀ (by norm_num)]; norm_num; 
theorem uu_small : uu ≤ 1.2e-16 := by norm_num [uu]
theorem eta_le : eta ≤ uu * uu := by
  rw [eta, tiny, uu, ← zpow_add₀ (by norm_num)]
  exact zpow_le_zpow_right₀ (by norm_num) (by norm_num)

theorem rnd_abs_error (y : ℝ) : |Binary64.rnd y - y| ≤ uu * |y| + eta := by
  rcases le_total 0 y with h | h
  · rw [abs_of_nonneg h]; exact Binary64.rnd_error h
  · have := Binary64.rnd_error (neg_nonneg.2 h)
    rw [Binary64.rnd_neg] at this
    rw [abs_of_nonpos h, abs_sub_comm]
    rwa [show -Binary64.rnd y - -y = y - Binary64.rnd y by ring] at this

theorem rnd_add_abs_error (a b : binary64.Num) : |Binary64.rnd (a.1 + b.1) - (a.1 + b.1)| ≤ uu * |a.1 + b.1| := by
  have ha := Binary64.mem_F a
  have hb := Binary64.mem_F b
  rcases le_total 0 (a.1 + b.1) with h | h
  · rw [abs_of_nonneg h]; exact Binary64.rnd_add_error ha hb h
  · have := Binary64.rnd_add_error (Binary64.F_neg ha) (Binary64.F_neg hb) (by linarith)
    rw [show -a.1 + -b.1 = -(a.1 + b.1) by ring, Binary64.rnd_neg] at this
    rw [abs_of_nonpos h, abs_sub_comm]
    rwa [show -Binary64.rnd (a.1 + b.1) - -(a.1 + b.1) = a.1 + b.1 - Binary64.rnd (a.1 + b.1) by ring] at this

theorem round_fin_of_le {y : ℝ} (h : |y| ≤ (2 : ℝ) ^ (1010 : ℤ)) :
    ∃ z : binary64.Num, Fl.round binary64 y = .fin z ∧ z.1 = Binary64.rnd y := by
  rw [abs_le] at h
  obtain ⟨z, hz, hz', -⟩ := Fl.round_between
    (a := binary64.negNum (Binary64.powNum 1010 (by norm_num) (by norm_num)))
    (b := Binary64.powNum 1010 (by norm_num) (by norm_num)) h.1 h.2
  exact ⟨z, hz, hz'⟩

theorem round_within {y : ℝ} (h : |y| ≤ (2 : ℝ) ^ (1010 : ℤ)) :
    Within (Fl.round binary64 y) y (uu * |y| + eta) := by
  obtain ⟨z, hz, hz'⟩ := round_fin_of_le h
  exact ⟨z, hz, by rw [hz']; exact rnd_abs_error y⟩

theorem within_mono {x : Fl binary64} {y e e' : ℝ} (h : Within x y e) (he : e ≤ e') : Within x y e' := by
  obtain ⟨z, hz, h⟩ := h
  exact ⟨z, hz, h.trans he⟩

theorem within_fin (z : binary64.Num) : Within (.fin z) z.1 0 := ⟨z, rfl, by simp⟩

theorem within_nonneg {x : Fl binary64} {y e : ℝ} (h : Within x y e) : 0 ≤ e := by
  obtain ⟨z, hz, h⟩ := h
  exact (abs_nonneg _).trans h

/-- The error of a product. -/
theorem within_mul {a b : Fl binary64} {x y e f : ℝ} (ha : Within a x e) (hb : Within b y f)
    (h : (|x| + e) * (|y| + f) ≤ (2 : ℝ) ^ (1010 : ℤ)) :
    Within (a.mul b) (x * y) (|x| * f + e * |y| + e * f + uu * ((|x| + e) * (|y| + f)) + eta) := by
  have he := within_nonneg ha
  have hf := within_nonneg hb
  obtain ⟨p, rfl, hp⟩ := ha
  obtain ⟨q, rfl, hq⟩ := hb
  have hpx : |p.1| ≤ |x| + e := by
    have := abs_sub_abs_le_abs_sub p.1 x; linarith
  have hqy : |q.1| ≤ |y| + f := by
    have := abs_sub_abs_le_abs_sub q.1 y; linarith
  have hm : |p.1 * q.1| ≤ (|x| + e) * (|y| + f) := by
    rw [abs_mul]; exact mul_le_mul hpx hqy (abs_nonneg _) (by positivity)
  obtain ⟨z, hz, hz'⟩ := round_within (hm.trans h)
  refine ⟨z, hz, ?_⟩
  have e1 : p.1 * q.1 - x * y = x * (q.1 - y) + (p.1 - x) * y + (p.1 - x) * (q.1 - y) := by ring
  have h1 : |p.1 * q.1 - x * y| ≤ |x| * f + e * |y| + e * f := by
    rw [e1]
    refine (abs_add_three _ _ _).trans ?_
    rw [abs_mul, abs_mul, abs_mul]
    gcongr
  have h2 : |z.1 - x * y| ≤ |z.1 - p.1 * q.1| + |p.1 * q.1 - x * y| := abs_sub_le _ _ _
  have h3 := mul_le_mul_of_nonneg_left hm uu_pos.le
  linarith

/-- The error of a difference. -/
theorem within_sub {a b : Fl binary64} {x y e f : ℝ} (ha : Within a x e) (hb : Within b y f)
    (h : |x| + e + (|y| + f) ≤ (2 : ℝ) ^ (1010 : ℤ)) :
    Within (a.sub b) (x - y) (e + f + uu * (|x - y| + e + f)) := by
  obtain ⟨p, rfl, hp⟩ := ha
  obtain ⟨q, rfl, hq⟩ := hb
  have h1 : |p.1 - q.1 - (x - y)| ≤ e + f := by
    rw [show p.1 - q.1 - (x - y) = (p.1 - x) - (q.1 - y) by ring]
    exact (abs_sub _ _).trans (add_le_add hp hq)
  have hm : |p.1 + (binary64.negNum q).1| ≤ |x - y| + e + f := by
    change |p.1 + -q.1| ≤ _
    rw [← sub_eq_add_neg]
    have := abs_sub_abs_le_abs_sub (p.1 - q.1) (x - y)
    linarith
  have hxy : |x - y| ≤ |x| + |y| := abs_sub _ _
  obtain ⟨z, hz, hz'⟩ := round_fin_of_le (y := p.1 + (binary64.negNum q).1) (by linarith)
  refine ⟨z, ?_, ?_⟩
  · rw [Fl.sub, Fl.neg_fin]
    exact hz
  · have h2 := rnd_add_abs_error p (binary64.negNum q)
    rw [← hz'] at h2
    have h3 := mul_le_mul_of_nonneg_left hm uu_pos.le
    have e2 : p.1 + (binary64.negNum q).1 = p.1 - q.1 := by
      change p.1 + -q.1 = _
      ring
    rw [e2] at h2 h3
    have h4 : |z.1 - (x - y)| ≤ |z.1 - (p.1 - q.1)| + |p.1 - q.1 - (x - y)| := abs_sub_le _ _ _
    linarith

/-! ## Sums -/

/-- The real number of a finite value. -/
noncomputable def Fl.real : Fl binary64 → ℝ
  | .fin x => x.1
  | _ => 0

theorem addedUp_ne_nil {l : List (Fl binary64)} {x : Fl binary64} (h : AddedUp l x) : 1 ≤ l.length := by
  induction h with
  | one => simp
  | add _ _ h1 h2 => rw [List.length_append]; omega
  | perm hp _ h => rw [← hp.length_eq]; exact h

theorem abs_sum_le_list (l : List (Fl binary64)) : |(l.map Fl.real).sum| ≤ (l.map fun y => |y.real|).sum := by
  induction l with
  | nil => simp
  | cons y l ih =>
    simp only [List.map_cons, List.sum_cons]
    exact (abs_add_le _ _).trans (by gcongr)

/-- The error of a sum, in whatever order it is computed. -/
theorem addedUp_within {l : List (Fl binary64)} {x : Fl binary64} (h : AddedUp l x) (hl : ∀ y ∈ l, IsFinite y)
    (hB : (1 + uu) ^ l.length * (l.map fun y => |y.real|).sum ≤ (2 : ℝ) ^ (1010 : ℤ)) :
    Within x (l.map Fl.real).sum (((1 + uu) ^ l.length - 1) * (l.map fun y => |y.real|).sum) := by
  have hu := uu_pos
  induction h with
  | one x =>
    obtain ⟨z, rfl⟩ := hl x (by simp)
    refine ⟨z, rfl, ?_⟩
    simp only [List.map_cons, List.map_nil, List.sum_cons, List.sum_nil, add_zero, List.length_cons, List.length_nil,
      _root_.zero_add, pow_one, add_sub_cancel_left]
    change |z.1 - z.1| ≤ _
    rw [sub_self, abs_zero]
    positivity
  | perm hp _ ih =>
    rw [← (hp.map Fl.real).sum_eq, ← (hp.map fun y => |y.real|).sum_eq, ← hp.length_eq] at *
    exact ih (fun y hy => hl y (hp.mem_iff.1 hy)) hB
  | @add l l' x y h1 h2 ih1 ih2 =>
    have n1 := addedUp_ne_nil h1
    have n2 := addedUp_ne_nil h2
    simp only [List.map_append, List.sum_append, List.length_append] at *
    have p1 : 0 ≤ (l.map fun y => |y.real|).sum := List.sum_nonneg (by simp)
    have p2 : 0 ≤ (l'.map fun y => |y.real|).sum := List.sum_nonneg (by simp)
    have q0 : (1 : ℝ) ≤ 1 + uu := by linarith
    have q1 : (1 + uu) ^ l.length * (1 + uu) ≤ (1 + uu) ^ (l.length + l'.length) := by
      rw [← pow_succ]; exact pow_le_pow_right₀ q0 (by omega)
    have q2 : (1 + uu) ^ l'.length * (1 + uu) ≤ (1 + uu) ^ (l.length + l'.length) := by
      rw [← pow_succ]; exact pow_le_pow_right₀ q0 (by omega)
    have o1 : 1 ≤ (1 + uu) ^ l.length := one_le_pow₀ q0
    have o2 : 1 ≤ (1 + uu) ^ l'.length := one_le_pow₀ q0
    generalize (1 + uu) ^ (l.length + l'.length) = Q at *
    generalize (1 + uu) ^ l.length = Q1 at *
    generalize (1 + uu) ^ l'.length = Q2 at *
    have d1 : Q1 ≤ Q := by nlinarith
    have d2 : Q2 ≤ Q := by nlinarith
    have b1 : Q1 * (l.map fun y => |y.real|).sum ≤ (2 : ℝ) ^ (1010 : ℤ) := by
      refine le_trans ?_ hB
      exact mul_le_mul d1 (by linarith) p1 (by linarith)
    have b2 : Q2 * (l'.map fun y => |y.real|).sum ≤ (2 : ℝ) ^ (1010 : ℤ) := by
      refine le_trans ?_ hB
      exact mul_le_mul d2 (by linarith) p2 (by linarith)
    obtain ⟨a, rfl, ha⟩ := ih1 (fun y hy => hl y (by simp [hy])) b1
    obtain ⟨b, rfl, hb⟩ := ih2 (fun y hy => hl y (by simp [hy])) b2
    have s1 : |(l.map Fl.real).sum| ≤ (l.map fun y => |y.real|).sum := abs_sum_le_list _
    have s2 : |(l'.map Fl.real).sum| ≤ (l'.map fun y => |y.real|).sum := abs_sum_le_list _
    generalize (l.map Fl.real).sum = S1 at *
    generalize (l'.map Fl.real).sum = S2 at *
    generalize (l.map fun y => |y.real|).sum = T1 at *
    generalize (l'.map fun y => |y.real|).sum = T2 at *
    have ha' : |a.1| ≤ Q1 * T1 := by
      have := abs_sub_abs_le_abs_sub a.1 S1; linarith
    have hb' : |b.1| ≤ Q2 * T2 := by
      have := abs_sub_abs_le_abs_sub b.1 S2; linarith
    have hab : |a.1 + b.1| ≤ Q1 * T1 + Q2 * T2 := (abs_add_le _ _).trans (add_le_add ha' hb')
    have m1 := mul_le_mul_of_nonneg_right d1 p1
    have m2 := mul_le_mul_of_nonneg_right d2 p2
    obtain ⟨z, hz, hz'⟩ := round_fin_of_le (y := a.1 + b.1) (by linarith)
    refine ⟨z, hz, ?_⟩
    have h3 := rnd_add_abs_error a b
    rw [← hz'] at h3
    have h4 := mul_le_mul_of_nonneg_left hab hu.le
    have h5 : |z.1 - (S1 + S2)| ≤ |z.1 - (a.1 + b.1)| + (|a.1 - S1| + |b.1 - S2|) := by
      refine (abs_sub_le _ (a.1 + b.1) _).trans ?_
      gcongr
      rw [show a.1 + b.1 - (S1 + S2) = (a.1 - S1) + (b.1 - S2) by ring]
      exact abs_add_le _ _
    have m3 := mul_le_mul_of_nonneg_right q1 p1
    have m4 := mul_le_mul_of_nonneg_right q2 p2
    nlinarith

theorem one_add_pow_le {k : ℕ} (hk : k ≤ 2 ^ 40) : (1 + uu) ^ k - 1 ≤ k * ulp := by
  rw [ulp_eq]
  have hu := uu_pos
  have hku : (k : ℝ) * uu ≤ 1 / 2 := by
    have : (k : ℝ) ≤ 2 ^ 40 := by exact_mod_cast hk
    calc (k : ℝ) * uu ≤ 2 ^ 40 * uu := mul_le_mul_of_nonneg_right this hu.le
      _ ≤ 1 / 2 := by norm_num [uu]
  have hk0 : (0 : ℝ) ≤ k * uu := by positivity
  have hu1 : uu ≤ 1 := uu_small.trans (by norm_num)
  have hber : 1 - k * uu ≤ (1 - uu) ^ k := by
    have := one_add_mul_le_pow (a := -uu) (by linarith) k
    rw [← sub_eq_add_neg] at this
    linarith
  have h3 : (1 - k * uu) * (1 + uu) ^ k ≤ 1 :=
    calc (1 - k * uu) * (1 + uu) ^ k ≤ (1 - uu) ^ k * (1 + uu) ^ k :=
        mul_le_mul_of_nonneg_right hber (pow_nonneg (by linarith) _)
      _ = (1 - uu ^ 2) ^ k := by rw [← mul_pow]; ring_nf
      _ ≤ 1 := pow_le_one₀ (by nlinarith) (by nlinarith)
  have h4 : 0 ≤ (1 + uu) ^ k := pow_nonneg (by linarith) _
  generalize (1 + uu) ^ k = q at *
  rw [show (k : ℝ) * (2 * uu) = 2 * (k * uu) by ring]
  generalize (k : ℝ) * uu = w at *
  nlinarith

/-- The error of a sum of numbers that have errors themselves. -/
theorem sumsTo_within {ι : Type} {l : List ι} {f : ι → Fl binary64} {g e : ι → ℝ} {s : Fl binary64}
    (hs : SumsTo (l.map f) s) (hlen : l.length ≤ 2 ^ 40) (h : ∀ i ∈ l, Within (f i) (g i) (e i))
    (hB : (l.map fun i => |g i| + e i).sum ≤ (2 : ℝ) ^ (1000 : ℤ)) :
    Within s (l.map g).sum
      ((l.map e).sum + l.length * ulp * (l.map fun i => |g i| + e i).sum) := by
  have hterm : ∀ i ∈ l, |(f i).real - g i| ≤ e i := by
    intro i hi
    obtain ⟨z, hz, h⟩ := h i hi
    rw [hz]; exact h
  have habs : ((l.map f).map fun y => |y.real|).sum ≤ (l.map fun i => |g i| + e i).sum := by
    rw [List.map_map]
    refine List.sum_le_sum fun i hi => ?_
    have := hterm i hi
    have := abs_sub_abs_le_abs_sub (f i).real (g i)
    simp only [Function.comp]
    linarith
  have hsum : |((l.map f).map Fl.real).sum - (l.map g).sum| ≤ (l.map e).sum := by
    rw [List.map_map]
    clear hB habs hs hlen h
    induction l with
    | nil => simp
    | cons i l ih =>
      simp only [List.map_cons, List.sum_cons, Function.comp]
      have h1 := hterm i (by simp)
      have h2 := ih fun j hj => hterm j (by simp [hj])
      rw [show (f i).real + (l.map (Fl.real ∘ f)).sum - (g i + (l.map g).sum) =
        ((f i).real - g i) + ((l.map (Fl.real ∘ f)).sum - (l.map g).sum) by ring]
      exact (abs_add_le _ _).trans (add_le_add h1 h2)
  have hp := one_add_pow_le hlen
  have hT : 0 ≤ ((l.map f).map fun y => |y.real|).sum := List.sum_nonneg (by simp)
  rcases hs with ⟨h1, h2⟩ | hs
  · have : l = [] := List.map_eq_nil_iff.1 h1
    subst this
    rw [h2, Fl.round_zero]
    exact ⟨_, rfl, by simp [FloatFormat.zero]⟩
  · have hw := addedUp_within hs (by
      intro y hy
      obtain ⟨i, hi, rfl⟩ := List.mem_map.1 hy
      obtain ⟨z, hz, -⟩ := h i hi
      exact ⟨z, hz⟩) (by
      rw [List.length_map]
      have h2 : (1 + uu) ^ l.length ≤ 2 := by
        have : (l.length : ℝ) * ulp ≤ 1 := by
          have : (l.length : ℝ) ≤ 2 ^ 40 := by exact_mod_cast hlen
          calc (l.length : ℝ) * ulp ≤ 2 ^ 40 * ulp := mul_le_mul_of_nonneg_right this (by unfold ulp; positivity)
            _ ≤ 1 := by norm_num [ulp]
        linarith
      calc _ ≤ 2 * (2 : ℝ) ^ (1000 : ℤ) := mul_le_mul h2 (habs.trans hB) hT (by norm_num)
        _ = (2 : ℝ) ^ (1001 : ℤ) := by rw [show (1001 : ℤ) = 1000 + 1 by norm_num, zpow_add₀ (by norm_num), zpow_one]; ring
        _ ≤ _ := zpow_le_zpow_right₀ (by norm_num) (by norm_num))
    obtain ⟨z, hz, hz'⟩ := hw
    refine ⟨z, hz, ?_⟩
    rw [List.length_map] at hz'
    have hu0 : 0 ≤ ulp := by unfold ulp; positivity
    have h3 : ((1 + uu) ^ l.length - 1) * ((l.map f).map fun y => |y.real|).sum ≤
        l.length * ulp * (l.map fun i => |g i| + e i).sum :=
      mul_le_mul hp habs hT (by positivity)
    have h4 := abs_sub_le z.1 ((l.map f).map Fl.real).sum (l.map g).sum
    linarith

/-- Adding up from the left is one of the orders. -/
theorem sumsTo_sum {A : FloatFormat} (l : List (Fl A)) : SumsTo l (Fl.sum l) := by
  have key : ∀ (l : List (Fl A)) (l' : List (Fl A)) (x : Fl A), AddedUp l' x → AddedUp (l' ++ l) (l.foldl Fl.add x) := by
    intro l
    induction l with
    | nil => intro l' x h; simpa using h
    | cons y l ih =>
      intro l' x h
      have := ih (l' ++ [y]) (x.add y) (.add h (.one y))
      simpa using this
  cases l with
  | nil => exact Or.inl ⟨rfl, rfl⟩
  | cons y l =>
    refine Or.inr ?_
    have := key l [y] y (.one y)
    rw [Fl.sum, List.foldl_cons, Fl.zero_add]
    simpa using this

end Pylogit
