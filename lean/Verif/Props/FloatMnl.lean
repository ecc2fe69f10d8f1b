import Verif.Lemmas.FloatLogit
import Verif.Lemmas.Choice
import Verif.Model.Transforms

/-!
# C123: computed results of multinomial logits are those of exact arithmetic up to rounding errors
-/

namespace Pylogit

open Spec Fl Finset

variable {n k : ℕ} {O : Type} [DecidableEq O]

theorem sum_finRange (f : Fin n → ℝ) : ((List.finRange n).map f).sum = ∑ i, f i := by
  rw [← List.ofFn_eq_map, List.sum_ofFn]

/-- Utilities: whatever the order in which the products are added up, the error is at most `(k + 1) (V + 1)` units. -/
theorem float_utility (x beta : Fin k → binary64.Num) {V : ℝ} (hV : ∑ j, |(x j).1 * (beta j).1| ≤ V) (hV' : V ≤ 300)
    (hk : k ≤ 2 ^ 20) {v : Fl binary64} (hv : DotOf (fun j => .fin (x j)) (fun j => .fin (beta j)) v) :
    Within v (∑ j, (x j).1 * (beta j).1) (dotError k V) := by
  have hu := uu_pos
  have he := eta_pos
  have hterm : ∀ j, |(x j).1 * (beta j).1| ≤ 300 := fun j =>
    (Finset.single_le_sum (f := fun j => |(x j).1 * (beta j).1|) (fun j _ => abs_nonneg _) (mem_univ j)).trans
      (hV.trans hV')
  have hV0 : 0 ≤ V := (Finset.sum_nonneg fun j _ => abs_nonneg _).trans hV
  have h1010 : (300 : ℝ) ≤ 2 ^ (1010 : ℤ) := by
    calc (300 : ℝ) ≤ 2 ^ (9 : ℤ) := by norm_num
      _ ≤ _ := zpow_le_zpow_right₀ (by norm_num) (by norm_num)
  have hk' : (k : ℝ) ≤ 2 ^ 20 := by exact_mod_cast hk
  have hke : (k : ℝ) * eta ≤ uu := by
    have h1 : (2 : ℝ) ^ 20 * uu ≤ 1 := by norm_num [uu]
    calc (k : ℝ) * eta ≤ 2 ^ 20 * (uu * uu) := mul_le_mul hk' eta_le he.le (by norm_num)
      _ = (2 ^ 20 * uu) * uu := by ring
      _ ≤ 1 * uu := mul_le_mul_of_nonneg_right h1 hu.le
      _ = uu := _root_.one_mul _
  have hus := uu_small
  have huA : uu * ∑ j, |(x j).1 * (beta j).1| ≤ 1 / 100 := by
    calc _ ≤ 1.2e-16 * 300 := mul_le_mul hus (hV.trans hV') (Finset.sum_nonneg fun j _ => abs_nonneg _) (by norm_num)
      _ ≤ _ := by norm_num
  unfold DotOf at hv
  rw [List.ofFn_eq_map] at hv
  have h := sumsTo_within (l := List.finRange k) (g := fun j => (x j).1 * (beta j).1)
    (e := fun j => uu * |(x j).1 * (beta j).1| + eta) hv (by rw [List.length_finRange]; exact hk.trans (by norm_num))
    (fun j _ => round_within ((hterm j).trans h1010)) (by
      rw [sum_finRange, Finset.sum_add_distrib, Finset.sum_add_distrib, ← Finset.mul_sum, Finset.sum_const, card_univ,
        Fintype.card_fin, nsmul_eq_mul]
      calc _ ≤ (1000 : ℝ) := by linarith
        _ ≤ (2 : ℝ) ^ (10 : ℤ) := by norm_num
        _ ≤ _ := zpow_le_zpow_right₀ (by norm_num) (by norm_num))
  simp only [sum_finRange, Finset.sum_add_distrib, ← Finset.mul_sum, Finset.sum_const, card_univ, Fintype.card_fin,
    nsmul_eq_mul, List.length_finRange] at h
  refine within_mono h ?_
  rw [dotError, ulp_eq]
  have hA0 : 0 ≤ ∑ j, |(x j).1 * (beta j).1| := Finset.sum_nonneg fun j _ => abs_nonneg _
  generalize (∑ j, |(x j).1 * (beta j).1|) = A at *
  have hk0 : (0 : ℝ) ≤ k := Nat.cast_nonneg k
  have h1 : A + (uu * A + k * eta) ≤ V + 1 := by linarith
  have h2 : (k : ℝ) * (2 * uu) * (A + (uu * A + k * eta)) ≤ k * (2 * uu) * (V + 1) :=
    mul_le_mul_of_nonneg_left h1 (by positivity)
  nlinarith

theorem logitProb_le_one (obs : Fin n → O) (v : Fin n → ℝ) (r : Fin n) : logitProb obs v r ≤ 1 := by
  unfold logitProb
  rw [div_le_one (Sep.denom_pos obs v r)]
  exact Finset.single_le_sum (f := fun s => Real.exp (v s)) (fun s _ => (Real.exp_pos _).le) (Sep.mem_rows.2 rfl)

theorem log_logitProb_ge {obs : Fin n → O} {v : Fin n → ℝ} {V : ℝ} {m : ℕ} (hv : ∀ s, |v s| ≤ V) (hV : V ≤ 300)
    (hm : ∀ o, Finset.card {s | obs s = o} ≤ m) (hm' : m ≤ 2 ^ 20) (r : Fin n) :
    |Real.log (logitProb obs v r)| ≤ 620 := by
  have h0 := Sep.prob_pos obs v r
  rw [abs_of_nonpos (Real.log_nonpos h0.le (logitProb_le_one obs v r)), neg_le,
    Real.le_log_iff_exp_le h0]
  unfold logitProb
  rw [le_div_iff₀ (Sep.denom_pos obs v r)]
  have hd : ∑ s ∈ rowsOf obs (obs r), Real.exp (v s) ≤ (2 : ℝ) ^ 20 * Real.exp 300 := by
    have h1 := Finset.sum_le_card_nsmul (rowsOf obs (obs r)) (fun s => Real.exp (v s)) (Real.exp 300) fun s _ =>
      Real.exp_le_exp.2 ((le_abs_self _).trans ((hv s).trans hV))
    refine h1.trans ?_
    rw [nsmul_eq_mul]
    refine mul_le_mul_of_nonneg_right ?_ (Real.exp_pos _).le
    exact_mod_cast (hm (obs r)).trans hm'
  have h2 : (2 : ℝ) ^ 20 ≤ Real.exp 20 := by
    have := zpow_le_exp (x := 20) (k := 20) (by
      have := Real.log_two_lt_d9
      push_cast
      linarith)
    exact_mod_cast this
  calc Real.exp (-620) * ∑ s ∈ rowsOf obs (obs r), Real.exp (v s)
      ≤ Real.exp (-620) * (Real.exp 20 * Real.exp 300) := by
        refine mul_le_mul_of_nonneg_left (hd.trans ?_) (Real.exp_pos _).le
        exact mul_le_mul_of_nonneg_right h2 (Real.exp_pos _).le
    _ = Real.exp (-300) := by rw [← Real.exp_add, ← Real.exp_add]; norm_num
    _ ≤ _ := Real.exp_le_exp.2 (by have := abs_le.1 (hv r); linarith)

theorem probError_ge {m : ℕ} {a : ℝ} (ha : 0 ≤ a) : 6 * ulp ≤ probError m a := by
  unfold probError
  have := ulp_pos
  have : (0 : ℝ) ≤ m * ulp := by positivity
  nlinarith

theorem probError_le {m : ℕ} {a : ℝ} (ha : a ≤ 1 / 100) (hm : m ≤ 2 ^ 20) : probError m a ≤ 1 / 40 := by
  unfold probError
  have h0 := (rows_ulp hm).trans (show (2 : ℝ) ^ (-32 : ℤ) ≤ 1 / 10000 by norm_num)
  have h1 : ulp ≤ 1 / 10000 := by norm_num [ulp]
  linarith

theorem rows_ulp_40 {n : ℕ} (h : n ≤ 2 ^ 40) : (n : ℝ) * ulp ≤ 1 / 1000 := by
  have : (n : ℝ) ≤ 2 ^ 40 := by exact_mod_cast h
  calc (n : ℝ) * ulp ≤ 2 ^ 40 * ulp := mul_le_mul_of_nonneg_right this ulp_pos.le
    _ ≤ _ := by norm_num [ulp]

theorem two_pow_le_zpow {x : ℝ} {e : ℕ} {f : ℤ} (h : x ≤ 2 ^ e) (hf : (e : ℤ) ≤ f) : x ≤ (2 : ℝ) ^ f :=
  h.trans (by rw [← zpow_natCast]; exact zpow_le_zpow_right₀ (by norm_num) hf)

/-- The error of a term of the log-likelihood. -/
theorem loglik_term {c w : binary64.Num} {l : Fl binary64} {y κ : ℝ} (hl : Within l y (2 * κ + ulp * |y|))
    (hκ : 6 * ulp ≤ κ) (hκ1 : κ ≤ 1 / 40) (hy : |y| ≤ 620) (hc : 0 ≤ c.1 ∧ c.1 ≤ 1) (hw : 0 ≤ w.1 ∧ w.1 ≤ 2 ^ 100) :
    Within ((Fl.fin c).mul ((Fl.fin w).mul l)) (c.1 * (w.1 * y))
      (c.1 * w.1 * (4 * κ + 3 * ulp * |y|) + 3 * tiny) := by
  have hu := uu_pos
  have hup := ulp_pos
  have he : 0 < tiny := eta_pos
  have hus := uu_small
  have hul : ulp = 2 * uu := ulp_eq
  have hee : tiny ≤ uu := eta_le.trans (by nlinarith)
  have hy0 := abs_nonneg y
  have hκ0 : 0 ≤ κ := by linarith
  have hw0 := hw.1
  have hf : 2 * κ + ulp * |y| ≤ 1 := by
    have : ulp * |y| ≤ ulp * 620 := mul_le_mul_of_nonneg_left hy hup.le
    linarith
  have h1 := within_mul (within_fin w) hl (by
    rw [abs_of_nonneg hw.1, add_zero]
    refine two_pow_le_zpow (e := 110) ?_ (by norm_num)
    calc w.1 * (|y| + (2 * κ + ulp * |y|)) ≤ 2 ^ 100 * 2 ^ 10 :=
          mul_le_mul hw.2 (by linarith) (by positivity) (by positivity)
      _ = _ := by norm_num)
  rw [abs_of_nonneg hw.1] at h1
  have h2 : Within ((Fl.fin w).mul l) (w.1 * y) (w.1 * (3 * κ + 2 * ulp * |y|) + tiny) := by
    refine within_mono h1 ?_
    have h3 : uu * (|y| + (2 * κ + ulp * |y|)) ≤ κ + ulp * |y| := by
      have h4 : uu * κ ≤ 1 / 100 * κ := mul_le_mul_of_nonneg_right (by linarith) (by linarith)
      have h5 : uu * (ulp * |y|) ≤ 1 / 2 * (ulp * |y|) := mul_le_mul_of_nonneg_right (by linarith) (by positivity)
      have h6 : uu * |y| = 1 / 2 * (ulp * |y|) := by rw [hul]; ring
      rw [mul_add, mul_add, h6]
      linarith
    have h7 := mul_le_mul_of_nonneg_left h3 hw.1
    change _ + eta ≤ _
    nlinarith
  have hwf : w.1 * (3 * κ + 2 * ulp * |y|) ≤ 2 ^ 100 := by
    calc _ ≤ (2 : ℝ) ^ 100 * 1 := by
          refine mul_le_mul hw.2 ?_ (by positivity) (by positivity)
          have : ulp * |y| ≤ ulp * 620 := mul_le_mul_of_nonneg_left hy hup.le
          linarith
      _ = _ := mul_one _
  have hwy : w.1 * |y| ≤ 2 ^ 100 * 620 := mul_le_mul hw.2 hy hy0 (by positivity)
  have h8 := within_mul (within_fin c) h2 (by
    rw [abs_of_nonneg hc.1, add_zero, abs_mul, abs_of_nonneg hw.1]
    refine two_pow_le_zpow (e := 110) ?_ (by norm_num)
    have h9 : w.1 * |y| + (w.1 * (3 * κ + 2 * ulp * |y|) + tiny) ≤ 2 ^ 110 := by
      have : (1 : ℝ) ≤ 2 ^ 100 := by norm_num
      have e : (2 : ℝ) ^ 110 = 2 ^ 100 * 1024 := by norm_num
      rw [e]
      linarith
    refine le_trans (mul_le_of_le_one_left ?_ hc.2) h9
    positivity)
  refine within_mono h8 ?_
  rw [abs_of_nonneg hc.1, abs_mul, abs_of_nonneg hw.1]
  have hcw : 0 ≤ c.1 * w.1 := mul_nonneg hc.1 hw.1
  have hct : c.1 * tiny ≤ tiny := mul_le_of_le_one_left he.le hc.2
  have h10 : uu * (c.1 * (w.1 * |y| + (w.1 * (3 * κ + 2 * ulp * |y|) + tiny))) ≤
      c.1 * w.1 * (κ + ulp * |y|) + tiny := by
    have h4 : uu * κ ≤ 1 / 100 * κ := mul_le_mul_of_nonneg_right (by linarith) (by linarith)
    have h5 : uu * (ulp * |y|) ≤ 1 / 100 * (ulp * |y|) := mul_le_mul_of_nonneg_right (by linarith) (by positivity)
    have h6 : uu * |y| = 1 / 2 * (ulp * |y|) := by rw [hul]; ring
    have h7 : uu * |y| + 3 * (uu * κ) + 2 * (uu * (ulp * |y|)) ≤ κ + ulp * |y| := by
      rw [h6]
      have : 0 ≤ ulp * |y| := by positivity
      linarith
    have h8 := mul_le_mul_of_nonneg_left h7 hcw
    have h9 : uu * (c.1 * tiny) ≤ tiny := by
      refine (mul_le_of_le_one_left (mul_nonneg hc.1 he.le) (by linarith)).trans hct
    calc _ = c.1 * w.1 * (uu * |y| + 3 * (uu * κ) + 2 * (uu * (ulp * |y|))) + uu * (c.1 * tiny) := by ring
      _ ≤ _ := by linarith
  change _ + eta ≤ _
  have : eta = tiny := rfl
  nlinarith

/-- The error of a term of the gradient. -/
theorem gradient_term {c w x : binary64.Num} {l : Fl binary64} {P κ : ℝ} (hl : Within l P (2 * κ * P))
    (hP : 0 ≤ P) (hP1 : P ≤ 1) (hκ : 6 * ulp ≤ κ) (hκ1 : κ ≤ 1 / 40) (hc : 0 ≤ c.1 ∧ c.1 ≤ 1)
    (hw : 0 ≤ w.1 ∧ w.1 ≤ 2 ^ 100) (hx : |x.1| ≤ 2 ^ 100) :
    Within (((Fl.fin w).mul ((Fl.fin c).sub l)).mul (Fl.fin x)) (w.1 * (c.1 - P) * x.1)
      (5 * κ * (w.1 * |x.1|) + 3 * tiny * (|x.1| + 1)) := by
  have hu := uu_pos
  have hup := ulp_pos
  have he : 0 < tiny := eta_pos
  have hus := uu_small
  have hul : ulp = 2 * uu := ulp_eq
  have hee : tiny ≤ uu := eta_le.trans (by nlinarith)
  have hκ0 : 0 ≤ κ := by linarith
  have hw0 := hw.1
  have hκP : κ * P ≤ κ := mul_le_of_le_one_right hκ0 hP1
  have hκP0 : 0 ≤ κ * P := by positivity
  have hd : |c.1 - P| ≤ 1 := by
    rw [abs_le]
    constructor <;> linarith [hc.1, hc.2]
  have h4 : (4 : ℝ) ≤ 2 ^ (1010 : ℤ) := two_pow_le_zpow (e := 2) (by norm_num) (by norm_num)
  have h1 := within_sub (within_fin c) hl (by
    rw [abs_of_nonneg hc.1, abs_of_nonneg hP]
    exact le_trans (by linarith [hc.2]) h4)
  have h2 : Within ((Fl.fin c).sub l) (c.1 - P) (3 * κ) := by
    refine within_mono h1 ?_
    have : uu * (|c.1 - P| + 0 + 2 * κ * P) ≤ uu * 2 := mul_le_mul_of_nonneg_left (by linarith) hu.le
    linarith
  have h3 := within_mul (within_fin w) h2 (by
    rw [abs_of_nonneg hw0, add_zero]
    refine two_pow_le_zpow (e := 110) ?_ (by norm_num)
    calc w.1 * (|c.1 - P| + 3 * κ) ≤ 2 ^ 100 * 2 ^ 10 :=
          mul_le_mul hw.2 (by linarith) (by positivity) (by positivity)
      _ = _ := by norm_num)
  rw [abs_of_nonneg hw0] at h3
  have h5 : Within ((Fl.fin w).mul ((Fl.fin c).sub l)) (w.1 * (c.1 - P)) (4 * κ * w.1 + tiny) := by
    refine within_mono h3 ?_
    have h6 : uu * (|c.1 - P| + 3 * κ) ≤ κ := by
      have : uu * (|c.1 - P| + 3 * κ) ≤ uu * 2 := mul_le_mul_of_nonneg_left (by linarith) hu.le
      linarith
    have h7 := mul_le_mul_of_nonneg_left h6 hw0
    change _ + eta ≤ _
    have : eta = tiny := rfl
    nlinarith
  have hwd : |w.1 * (c.1 - P)| ≤ w.1 := by
    rw [abs_mul, abs_of_nonneg hw0]
    exact mul_le_of_le_one_right hw0 hd
  have hwd0 := abs_nonneg (w.1 * (c.1 - P))
  have hx0 := abs_nonneg x.1
  have hκw : κ * w.1 ≤ 1 / 40 * w.1 := mul_le_mul_of_nonneg_right hκ1 hw0
  have hκw0 : 0 ≤ κ * w.1 := by positivity
  have h8 := within_mul h5 (within_fin x) (by
    rw [add_zero]
    refine two_pow_le_zpow (e := 210) ?_ (by norm_num)
    have h9 : |w.1 * (c.1 - P)| + (4 * κ * w.1 + tiny) ≤ 2 ^ 110 := by
      have : (1 : ℝ) ≤ 2 ^ 100 := by norm_num
      rw [show (2 : ℝ) ^ 110 = 2 ^ 100 * 1024 by norm_num]
      linarith [hw.2]
    calc _ ≤ (2 : ℝ) ^ 110 * 2 ^ 100 := mul_le_mul h9 hx hx0 (by positivity)
      _ = _ := by norm_num)
  refine within_mono h8 ?_
  have h10 : uu * (|w.1 * (c.1 - P)| + (4 * κ * w.1 + tiny)) ≤ κ * w.1 + tiny := by
    have g1 : uu * |w.1 * (c.1 - P)| ≤ 1 / 2 * κ * w.1 := by
      calc _ ≤ uu * w.1 := mul_le_mul_of_nonneg_left hwd hu.le
        _ ≤ _ := mul_le_mul_of_nonneg_right (by linarith) hw0
    have g2 : uu * (4 * κ * w.1) ≤ 1 / 100 * (4 * κ * w.1) :=
      mul_le_mul_of_nonneg_right (by linarith) (by positivity)
    have g3 : uu * tiny ≤ 1 * tiny := mul_le_mul_of_nonneg_right (by linarith) he.le
    rw [mul_add, mul_add]
    linarith
  have h11 := mul_le_mul_of_nonneg_right h10 hx0
  have htx : 0 ≤ tiny * |x.1| := by positivity
  change _ + eta ≤ _
  have : eta = tiny := rfl
  nlinarith

section General

variable {L : MathLib binary64} {obs : Fin n → O} {t : Fin n → Fl binary64} {v : Fin n → ℝ} {V a : ℝ} {m : ℕ}

/-- Probabilities from utilities with errors up to `a`. -/
theorem float_probs_accurate (hL : ExpAccurate L) (ht : ∀ r, Within (t r) (v r) a) (hv : ∀ r, |v r| ≤ V) (hV : V ≤ 300)
    (ha : a ≤ 1 / 100) (hm : ∀ o, Finset.card {s | obs s = o} ≤ m) (hm' : m ≤ 2 ^ 20) (r : Fin n) :
    Within (floatLongProbs L obs t r) (logitProb obs v r) (2 * probError m a * logitProb obs v r) := by
  obtain ⟨p, hp, -, hp'⟩ := float_probs_close hL (r := r) (fun s _ => ht s) (fun s _ => hv s) hV (by linarith)
    (hm (obs r)) hm'
  have ha0 := within_nonneg (ht r)
  exact ⟨p, hp, hp'.abs (Sep.prob_pos obs v r).le ((by have := ulp_pos; positivity : (0:ℝ) ≤ 6 * ulp).trans (probError_ge ha0))
    ((probError_le ha hm').trans (by norm_num))⟩

/-- Log-likelihoods from utilities with errors up to `a`, in whatever order the terms are added up. -/
theorem float_loglik_accurate (hL : ExpAccurate L) (hL' : LogAccurate L) (ht : ∀ r, Within (t r) (v r) a)
    (hv : ∀ r, |v r| ≤ V) (hV : V ≤ 300) (ha : a ≤ 1 / 100) (hm : ∀ o, Finset.card {s | obs s = o} ≤ m) (hm' : m ≤ 2 ^ 20)
    (hn : n ≤ 2 ^ 40) {choice weights : Fin n → binary64.Num} (hc : ∀ r, 0 ≤ (choice r).1 ∧ (choice r).1 ≤ 1)
    (hw : ∀ r, 0 ≤ (weights r).1 ∧ (weights r).1 ≤ 2 ^ 100) {s : Fl binary64}
    (hs : LogLikOf L obs t (fun r => .fin (choice r)) (fun r => .fin (weights r)) s) :
    Within s (∑ r, (choice r).1 * ((weights r).1 * Real.log (logitProb obs v r)))
      (5 * probError m a * ∑ r, (choice r).1 * (weights r).1 +
        (n + 4) * ulp * |∑ r, (choice r).1 * ((weights r).1 * Real.log (logitProb obs v r))| + 4 * n * tiny) := by
  have hu := uu_pos
  have he := eta_pos
  have hus := uu_small
  have hee : eta ≤ uu := eta_le.trans (by nlinarith)
  have hul : ulp = 2 * uu := ulp_eq
  have hnu := rows_ulp_40 hn
  rcases Nat.eq_zero_or_pos n with rfl | hn0
  · rcases hs with ⟨-, h⟩ | h
    · rw [h, Fl.round_zero]
      exact ⟨_, rfl, by simp [FloatFormat.zero]⟩
    · exact absurd (addedUp_ne_nil h) (by simp)
  have ha0 := within_nonneg (ht ⟨0, hn0⟩)
  have hκ6 := probError_ge (m := m) ha0
  have hκ1 := probError_le ha hm'
  generalize hκ : probError m a = κ at *
  have hy : ∀ r, |Real.log (logitProb obs v r)| ≤ 620 := log_logitProb_ge hv hV hm hm'
  have hyn : ∀ r, Real.log (logitProb obs v r) ≤ 0 := fun r =>
    Real.log_nonpos (Sep.prob_pos obs v r).le (logitProb_le_one obs v r)
  have hlog : ∀ r, Within ((floatLongProbs L obs t r).log L) (Real.log (logitProb obs v r))
      (2 * κ + ulp * |Real.log (logitProb obs v r)|) := by
    intro r
    obtain ⟨p, hp, hp0, hp'⟩ := float_probs_close hL (r := r) (fun s _ => ht s) (fun s _ => hv s) hV (by linarith)
      (hm (obs r)) hm'
    rw [hκ] at hp'
    refine ⟨L.log p, ?_, ?_⟩
    · rw [hp]
      simp only [Fl.log, if_neg hp0.ne', if_neg (not_lt.2 hp0.le)]
    · have h1 := hL' p hp0
      have h2 := hp'.log hp0 (Sep.prob_pos obs v r)
      have h3 := abs_sub_le (L.log p).1 (Real.log p.1) (Real.log (logitProb obs v r))
      have h4 := abs_sub_abs_le_abs_sub (Real.log p.1) (Real.log (logitProb obs v r))
      have h5 : ulp * |Real.log p.1| ≤ ulp * (|Real.log (logitProb obs v r)| + κ) :=
        mul_le_mul_of_nonneg_left (by linarith) ulp_pos.le
      have h6 : ulp * κ ≤ 1 / 2 * κ := mul_le_mul_of_nonneg_right (by rw [hul]; linarith) (by linarith)
      change |(L.log p).1 - _| ≤ _
      have h7 : tiny ≤ uu := hee
      linarith
  have hterm := fun r => loglik_term (hlog r) hκ6 hκ1 (hy r) (hc r) (hw r)
  have habs : |∑ r, (choice r).1 * ((weights r).1 * Real.log (logitProb obs v r))| =
      ∑ r, (choice r).1 * (weights r).1 * |Real.log (logitProb obs v r)| := by
    rw [abs_of_nonpos (Finset.sum_nonpos fun r _ =>
      mul_nonpos_of_nonneg_of_nonpos (hc r).1 (mul_nonpos_of_nonneg_of_nonpos (hw r).1 (hyn r))), ← Finset.sum_neg_distrib]
    refine Finset.sum_congr rfl fun r _ => ?_
    rw [abs_of_nonpos (hyn r)]
    ring
  have habs' : ∀ r, |(choice r).1 * ((weights r).1 * Real.log (logitProb obs v r))| =
      (choice r).1 * (weights r).1 * |Real.log (logitProb obs v r)| := by
    intro r
    rw [abs_mul, abs_mul, abs_of_nonneg (hc r).1, abs_of_nonneg (hw r).1]
    ring
  rw [habs]
  have hcw : ∀ r, 0 ≤ (choice r).1 * (weights r).1 := fun r => mul_nonneg (hc r).1 (hw r).1
  have hcw' : ∀ r, (choice r).1 * (weights r).1 ≤ 2 ^ 100 := fun r =>
    (mul_le_of_le_one_left (hw r).1 (hc r).2).trans (hw r).2
  unfold LogLikOf at hs
  have h := sumsTo_within hs (by rw [List.length_finRange]; exact hn) (fun r _ => hterm r) (by
    rw [sum_finRange]
    refine two_pow_le_zpow (e := 150) ?_ (by norm_num)
    have hn' : (n : ℝ) ≤ 2 ^ 40 := by exact_mod_cast hn
    calc _ ≤ ∑ _r : Fin n, (2 : ℝ) ^ 110 := by
          refine Finset.sum_le_sum fun r _ => ?_
          rw [habs']
          have hup := ulp_pos
          have hκ0 : 0 ≤ κ := by linarith
          have h0 := abs_nonneg (Real.log (logitProb obs v r))
          have h1 : (choice r).1 * (weights r).1 * |Real.log (logitProb obs v r)| ≤ 2 ^ 100 * 620 :=
            mul_le_mul (hcw' r) (hy r) h0 (by positivity)
          have h2 : (choice r).1 * (weights r).1 * (4 * κ + 3 * ulp * |Real.log (logitProb obs v r)|) ≤ 2 ^ 100 * 1 := by
            refine mul_le_mul (hcw' r) ?_ (by positivity) (by positivity)
            have : ulp * |Real.log (logitProb obs v r)| ≤ ulp * 620 := mul_le_mul_of_nonneg_left (hy r) ulp_pos.le
            linarith
          have h3 : (1 : ℝ) ≤ 2 ^ 100 := by norm_num
          have h4 : tiny ≤ uu := hee
          rw [show (2 : ℝ) ^ 110 = 2 ^ 100 * 1024 by norm_num]
          linarith
      _ = n * 2 ^ 110 := by rw [Finset.sum_const, card_univ, Fintype.card_fin, nsmul_eq_mul]
      _ ≤ 2 ^ 40 * 2 ^ 110 := mul_le_mul_of_nonneg_right hn' (by positivity)
      _ = _ := by norm_num)
  simp only [sum_finRange, List.length_finRange, habs'] at h
  refine within_mono h ?_
  have e1 : ∑ r, ((choice r).1 * (weights r).1 * (4 * κ + 3 * ulp * |Real.log (logitProb obs v r)|) + 3 * tiny) =
      4 * κ * ∑ r, (choice r).1 * (weights r).1 +
        3 * ulp * ∑ r, (choice r).1 * (weights r).1 * |Real.log (logitProb obs v r)| + 3 * n * tiny := by
    rw [Finset.mul_sum, Finset.mul_sum, ← Finset.sum_add_distrib, Finset.sum_add_distrib, Finset.sum_const, card_univ,
      Fintype.card_fin, nsmul_eq_mul]
    congr 1
    · exact Finset.sum_congr rfl fun r _ => by ring
    · ring
  rw [e1, Finset.sum_add_distrib, e1]
  have hW : 0 ≤ ∑ r, (choice r).1 * (weights r).1 := Finset.sum_nonneg fun r _ => hcw r
  have hY : 0 ≤ ∑ r, (choice r).1 * (weights r).1 * |Real.log (logitProb obs v r)| :=
    Finset.sum_nonneg fun r _ => mul_nonneg (hcw r) (abs_nonneg _)
  generalize (∑ r, (choice r).1 * (weights r).1) = W at *
  generalize (∑ r, (choice r).1 * (weights r).1 * |Real.log (logitProb obs v r)|) = Y at *
  have hκ0 : 0 ≤ κ := by linarith
  have hup := ulp_pos
  have g1 := mul_le_mul_of_nonneg_right hnu (by positivity : 0 ≤ 4 * (κ * W))
  have g2 := mul_le_mul_of_nonneg_right hnu (by positivity : 0 ≤ 3 * (ulp * Y))
  have g3 := mul_le_mul_of_nonneg_right hnu (by have : 0 < tiny := he; positivity : 0 ≤ 3 * (n * tiny))
  have p1 : 0 ≤ κ * W := by positivity
  have p2 : 0 ≤ ulp * Y := by positivity
  have p3 : 0 ≤ n * tiny := by have : 0 < tiny := he; positivity
  nlinarith


/-- Gradients from utilities with errors up to `a`, for a column `x` of the design matrix. -/
theorem float_gradient_accurate (hL : ExpAccurate L) (ht : ∀ r, Within (t r) (v r) a)
    (hv : ∀ r, |v r| ≤ V) (hV : V ≤ 300) (ha : a ≤ 1 / 100) (hm : ∀ o, Finset.card {s | obs s = o} ≤ m) (hm' : m ≤ 2 ^ 20)
    (hn : n ≤ 2 ^ 40) {choice weights x : Fin n → binary64.Num} (hc : ∀ r, 0 ≤ (choice r).1 ∧ (choice r).1 ≤ 1)
    (hw : ∀ r, 0 ≤ (weights r).1 ∧ (weights r).1 ≤ 2 ^ 100) (hx : ∀ r, |(x r).1| ≤ 2 ^ 100) {s : Fl binary64}
    (hs : GradientOf L obs t (fun r => .fin (choice r)) (fun r => .fin (weights r)) (fun r => .fin (x r)) s) :
    Within s (∑ r, (weights r).1 * ((choice r).1 - logitProb obs v r) * (x r).1)
      ((6 * probError m a + n * ulp) * ∑ r, (weights r).1 * |(x r).1| + 4 * tiny * ∑ r, (|(x r).1| + 1)) := by
  have hu := uu_pos
  have he : 0 < tiny := eta_pos
  have hus := uu_small
  have hee : tiny ≤ uu := eta_le.trans (by nlinarith)
  have hul : ulp = 2 * uu := ulp_eq
  have hnu := rows_ulp_40 hn
  rcases Nat.eq_zero_or_pos n with rfl | hn0
  · rcases hs with ⟨-, h⟩ | h
    · rw [h, Fl.round_zero]
      exact ⟨_, rfl, by simp [FloatFormat.zero]⟩
    · exact absurd (addedUp_ne_nil h) (by simp)
  have ha0 := within_nonneg (ht ⟨0, hn0⟩)
  have hκ6 := probError_ge (m := m) ha0
  have hκ1 := probError_le ha hm'
  have hp := float_probs_accurate hL ht hv hV ha hm hm'
  generalize probError m a = κ at *
  have hterm : ∀ r, Within (((Fl.fin (weights r)).mul ((Fl.fin (choice r)).sub (floatLongProbs L obs t r))).mul
      (Fl.fin (x r)).pick) ((weights r).1 * ((choice r).1 - logitProb obs v r) * (x r).1)
      (5 * κ * ((weights r).1 * |(x r).1|) + 3 * tiny * (|(x r).1| + 1)) := by
    intro r
    rw [pick_eq]
    exact gradient_term (hp r) (Sep.prob_pos obs v r).le (logitProb_le_one obs v r) hκ6 hκ1 (hc r) (hw r) (hx r)
  have habs : ∀ r, |(weights r).1 * ((choice r).1 - logitProb obs v r) * (x r).1| ≤ (weights r).1 * |(x r).1| := by
    intro r
    rw [abs_mul, abs_mul, abs_of_nonneg (hw r).1]
    refine mul_le_mul_of_nonneg_right (mul_le_of_le_one_right (hw r).1 ?_) (abs_nonneg _)
    have h1 := Sep.prob_pos obs v r
    have h2 := logitProb_le_one obs v r
    rw [abs_le]
    constructor <;> linarith [(hc r).1, (hc r).2]
  have hwx : ∀ r, 0 ≤ (weights r).1 * |(x r).1| := fun r => mul_nonneg (hw r).1 (abs_nonneg _)
  have hsum : ∑ r, (|(weights r).1 * ((choice r).1 - logitProb obs v r) * (x r).1| +
      (5 * κ * ((weights r).1 * |(x r).1|) + 3 * tiny * (|(x r).1| + 1))) ≤
      ∑ r, (weights r).1 * |(x r).1| + (5 * κ * ∑ r, (weights r).1 * |(x r).1| + 3 * tiny * ∑ r, (|(x r).1| + 1)) := by
    rw [Finset.mul_sum, Finset.mul_sum, ← Finset.sum_add_distrib, ← Finset.sum_add_distrib]
    exact Finset.sum_le_sum fun r _ => by linarith [habs r]
  unfold GradientOf at hs
  have h := sumsTo_within hs (by rw [List.length_finRange]; exact hn) (fun r _ => hterm r) (by
    rw [sum_finRange]
    refine two_pow_le_zpow (e := 250) ?_ (by norm_num)
    have hn' : (n : ℝ) ≤ 2 ^ 40 := by exact_mod_cast hn
    calc _ ≤ ∑ _r : Fin n, (2 : ℝ) ^ 210 := by
          refine Finset.sum_le_sum fun r _ => ?_
          have h0 := abs_nonneg (x r).1
          have h1 : (weights r).1 * |(x r).1| ≤ 2 ^ 100 * 2 ^ 100 := mul_le_mul (hw r).2 (hx r) h0 (by positivity)
          have h2 : 5 * κ * ((weights r).1 * |(x r).1|) ≤ 1 * ((weights r).1 * |(x r).1|) :=
            mul_le_mul_of_nonneg_right (by linarith) (hwx r)
          have h3 : 3 * tiny * (|(x r).1| + 1) ≤ 1 * (2 ^ 100 + 1) :=
            mul_le_mul (by linarith) (by linarith [hx r]) (by positivity) (by norm_num)
          have h4 := habs r
          have h5 : (2 : ℝ) ^ 210 = 2 ^ 100 * 2 ^ 100 * 1024 := by norm_num
          have h6 : (1 : ℝ) ≤ 2 ^ 100 := by norm_num
          have h7 : (2 : ℝ) ^ 100 ≤ 2 ^ 100 * 2 ^ 100 := by norm_num
          rw [h5]
          linarith
      _ = n * 2 ^ 210 := by rw [Finset.sum_const, card_univ, Fintype.card_fin, nsmul_eq_mul]
      _ ≤ 2 ^ 40 * 2 ^ 210 := mul_le_mul_of_nonneg_right hn' (by positivity)
      _ = _ := by norm_num)
  simp only [sum_finRange, List.length_finRange] at h
  refine within_mono h ?_
  have hG : 0 ≤ ∑ r, (weights r).1 * |(x r).1| := Finset.sum_nonneg fun r _ => hwx r
  have hX : 0 ≤ ∑ r, (|(x r).1| + 1) := Finset.sum_nonneg fun r _ => by positivity
  have e1 : ∑ r, (5 * κ * ((weights r).1 * |(x r).1|) + 3 * tiny * (|(x r).1| + 1)) =
      5 * κ * ∑ r, (weights r).1 * |(x r).1| + 3 * tiny * ∑ r, (|(x r).1| + 1) := by
    rw [Finset.mul_sum, Finset.mul_sum, ← Finset.sum_add_distrib]
  have hup := ulp_pos
  have hκ0 : 0 ≤ κ := by linarith
  have h1 := mul_le_mul_of_nonneg_left hsum (by positivity : 0 ≤ (n : ℝ) * ulp)
  rw [e1]
  generalize (∑ r, (weights r).1 * |(x r).1|) = G at *
  generalize (∑ r, (|(x r).1| + 1)) = X at *
  have g1 := mul_le_mul_of_nonneg_right hnu (by positivity : 0 ≤ 5 * (κ * G))
  have g2 := mul_le_mul_of_nonneg_right hnu (by positivity : 0 ≤ 3 * (tiny * X))
  have p1 : 0 ≤ κ * G := by positivity
  have p2 : 0 ≤ tiny * X := by positivity
  nlinarith

end General

/-! ## Multinomial logits -/

theorem dotError_le {k : ℕ} {V : ℝ} (hk : k ≤ 2 ^ 20) (hV : V ≤ 300) (hV0 : 0 ≤ V) : dotError k V ≤ 1 / 100 := by
  unfold dotError
  have hk' : (k : ℝ) + 1 ≤ 2 ^ 21 := by
    have : (k : ℝ) ≤ 2 ^ 20 := by exact_mod_cast hk
    linarith
  calc ((k : ℝ) + 1) * ulp * (V + 1) ≤ 2 ^ 21 * ulp * 301 := by
        have := ulp_pos
        gcongr
        linarith
    _ ≤ _ := by norm_num [ulp]

section Mnl

variable {obs : Fin n → O} {x : Fin n → Fin k → binary64.Num} {beta : Fin k → binary64.Num} {V : ℝ} {m : ℕ}

theorem exactUtility_le (hd : ModerateSize obs x beta V m) (r : Fin n) : |exactUtility x beta r| ≤ V :=
  (Finset.abs_sum_le_sum_abs _ _).trans (hd.terms r)

/-- C123: the computed probabilities have a relative error of at most `4 (k + 1) (V + 1) + 4 m + 12` units. -/
theorem float_mnl_probs {L : MathLib binary64} (hL : ExpAccurate L) (hd : ModerateSize obs x beta V m) {t : Fin n → Fl binary64}
    (ht : ∀ r, DotOf (fun j => .fin (x r j)) (fun j => .fin (beta j)) (t r)) (r : Fin n) :
    Within (floatLongProbs L obs t r) (logitProb obs (exactUtility x beta) r)
      (2 * probError m (dotError k V) * logitProb obs (exactUtility x beta) r) :=
  float_probs_accurate hL (fun r => float_utility (x r) beta (hd.terms r) hd.utility hd.columns (ht r))
    (exactUtility_le hd) hd.utility
    (dotError_le hd.columns hd.utility ((Finset.sum_nonneg fun _ _ => abs_nonneg _).trans (hd.terms r))) hd.rows hd.rows_le r

/-- C123: the computed log-likelihood. -/
theorem float_mnl_loglik {L : MathLib binary64} (hL : ExpAccurate L) (hL' : LogAccurate L) (hd : ModerateSize obs x beta V m)
    (hV : 0 ≤ V) (hn : n ≤ 2 ^ 40) {t : Fin n → Fl binary64}
    (ht : ∀ r, DotOf (fun j => .fin (x r j)) (fun j => .fin (beta j)) (t r))
    {choice weights : Fin n → binary64.Num} (hc : ∀ r, 0 ≤ (choice r).1 ∧ (choice r).1 ≤ 1)
    (hw : ∀ r, 0 ≤ (weights r).1 ∧ (weights r).1 ≤ 2 ^ 100) {s : Fl binary64}
    (hs : LogLikOf L obs t (fun r => .fin (choice r)) (fun r => .fin (weights r)) s) :
    Within s (∑ r, (choice r).1 * ((weights r).1 * Real.log (logitProb obs (exactUtility x beta) r)))
      (5 * probError m (dotError k V) * ∑ r, (choice r).1 * (weights r).1 + (n + 4) * ulp *
        |∑ r, (choice r).1 * ((weights r).1 * Real.log (logitProb obs (exactUtility x beta) r))| + 4 * n * tiny) :=
  float_loglik_accurate hL hL' (fun r => float_utility (x r) beta (hd.terms r) hd.utility hd.columns (ht r))
    (exactUtility_le hd) hd.utility (dotError_le hd.columns hd.utility hV) hd.rows hd.rows_le hn hc hw hs

/-- C123: the entries of the computed gradient. -/
theorem float_mnl_gradient {L : MathLib binary64} (hL : ExpAccurate L) (hd : ModerateSize obs x beta V m)
    (hV : 0 ≤ V) (hn : n ≤ 2 ^ 40) {t : Fin n → Fl binary64}
    (ht : ∀ r, DotOf (fun j => .fin (x r j)) (fun j => .fin (beta j)) (t r))
    {choice weights : Fin n → binary64.Num} (hc : ∀ r, 0 ≤ (choice r).1 ∧ (choice r).1 ≤ 1)
    (hw : ∀ r, 0 ≤ (weights r).1 ∧ (weights r).1 ≤ 2 ^ 100) (j : Fin k) (hx : ∀ r, |(x r j).1| ≤ 2 ^ 100) {s : Fl binary64}
    (hs : GradientOf L obs t (fun r => .fin (choice r)) (fun r => .fin (weights r)) (fun r => .fin (x r j)) s) :
    Within s (∑ r, (weights r).1 * ((choice r).1 - logitProb obs (exactUtility x beta) r) * (x r j).1)
      ((6 * probError m (dotError k V) + n * ulp) * ∑ r, (weights r).1 * |(x r j).1| +
        4 * tiny * ∑ r, (|(x r j).1| + 1)) :=
  float_gradient_accurate hL (fun r => float_utility (x r) beta (hd.terms r) hd.utility hd.columns (ht r))
    (exactUtility_le hd) hd.utility (dotError_le hd.columns hd.utility hV) hd.rows hd.rows_le hn hc hw hx hs

/-- C123: two computations of a log-likelihood, with different libraries and in different orders, agree up to rounding
errors. -/
theorem float_mnl_reproducible {L L₂ : MathLib binary64} (hL : ExpAccurate L ∧ LogAccurate L)
    (hL₂ : ExpAccurate L₂ ∧ LogAccurate L₂) (hd : ModerateSize obs x beta V m) (hV : 0 ≤ V) (hn : n ≤ 2 ^ 40)
    {t t₂ : Fin n → Fl binary64} (ht : ∀ r, DotOf (fun j => .fin (x r j)) (fun j => .fin (beta j)) (t r))
    (ht₂ : ∀ r, DotOf (fun j => .fin (x r j)) (fun j => .fin (beta j)) (t₂ r))
    {choice weights : Fin n → binary64.Num} (hc : ∀ r, 0 ≤ (choice r).1 ∧ (choice r).1 ≤ 1)
    (hw : ∀ r, 0 ≤ (weights r).1 ∧ (weights r).1 ≤ 2 ^ 100) {s s₂ : Fl binary64}
    (hs : LogLikOf L obs t (fun r => .fin (choice r)) (fun r => .fin (weights r)) s)
    (hs₂ : LogLikOf L₂ obs t₂ (fun r => .fin (choice r)) (fun r => .fin (weights r)) s₂) :
    ∃ z z₂ : binary64.Num, s = .fin z ∧ s₂ = .fin z₂ ∧ |z.1 - z₂.1| ≤
      2 * (5 * probError m (dotError k V) * ∑ r, (choice r).1 * (weights r).1 + (n + 4) * ulp *
        |∑ r, (choice r).1 * ((weights r).1 * Real.log (logitProb obs (exactUtility x beta) r))| + 4 * n * tiny) := by
  obtain ⟨z, hz, h⟩ := float_mnl_loglik hL.1 hL.2 hd hV hn ht hc hw hs
  obtain ⟨z₂, hz₂, h₂⟩ := float_mnl_loglik hL₂.1 hL₂.2 hd hV hn ht₂ hc hw hs₂
  refine ⟨z, z₂, hz, hz₂, ?_⟩
  rw [abs_sub_comm] at h₂
  exact (abs_sub_le _ _ _).trans ((add_le_add h h₂).trans (by linarith))

/-! ### The model on real numbers -/

variable {Obs : Type} [Fintype Obs] [DecidableEq Obs] {A : Type}

/-- C123: what is computed in exact arithmetic is what the model on real numbers computes. -/
theorem model_mnl_exact {obs : Fin n → Obs} {x : Fin n → Fin k → binary64.Num} (hd : ModerateSize obs x beta V m)
    {M : Matrix (Fin n) Obs ℝ} (hM : Indicates M obs) (rta : Matrix (Fin n) A ℝ) (choice weights : Fin n → ℝ)
    (ids : Fin n → ℝ) :
    calcLogLikelihood (S := Empty) (I := Empty) (fun j => (beta j).1) (Matrix.of fun r j => (x r j).1) ids M rta choice
        mnlTransform none none none (some weights) =
      ∑ r, choice r * (weights r * Real.log (logitProb obs (exactUtility x beta) r)) ∧
    ∀ j, gradientNone mnlDerivs (Matrix.of fun r j => (x r j).1) choice
        (modelProbs (S := Empty) (I := Empty) (fun j => (beta j).1) (Matrix.of fun r j => (x r j).1) ids M rta mnlTransform
          none none) (some weights) none (fun j => (beta j).1) j =
      ∑ r, weights r * (choice r - logitProb obs (exactUtility x beta) r) * (x r j).1 := by
  have hp : ∀ r, modelProbs (S := Empty) (I := Empty) (fun j => (beta j).1) (Matrix.of fun r j => (x r j).1) ids M rta
      mnlTransform none none r = logitProb obs (exactUtility x beta) r := fun r =>
    longProbs_eq_logitProb hM r fun s _ => (exactUtility_le hd s).trans (hd.utility.trans (by norm_num))
  constructor
  · unfold calcLogLikelihood
    simp only [hp, defaultWeights, Option.getD_some]
  · intro j
    simp only [gradientNone, ridgeGrad, mnlDerivs, Matrix.vecMul, dotProduct, dLLdh, hp, Matrix.one_mul, Matrix.of_apply,
      defaultWeights, Option.getD_some]

end Mnl

/-! ## Limits -/

theorem num_log_le (z : binary64.Num) (hz : 0 < z.1) : |Real.log z.1| ≤ 1000 := by
  have h2 := Real.log_two_lt_d9
  have h2' := Real.log_two_gt_d9
  have lo : (2 : ℝ) ^ (-1074 : ℤ) ≤ z.1 := by
    obtain ⟨k, hk⟩ := Binary64.F_grid (Binary64.mem_F z)
    have hp : (0 : ℝ) < 2 ^ (-1074 : ℤ) := zpow_pos (by norm_num) _
    rw [hk] at hz ⊢
    have : (0 : ℝ) < k := (pos_iff_pos_of_mul_pos hz).2 hp
    have : (1 : ℝ) ≤ k := by exact_mod_cast this
    nlinarith
  have hi : z.1 ≤ (2 : ℝ) ^ (1024 : ℤ) := by
    refine ((le_abs_self _).trans z.2.2).trans ?_
    change Binary64.big ≤ _
    rw [Binary64.big, show (1024 : ℤ) = 53 + 971 by norm_num, zpow_add₀ (by norm_num)]
    exact mul_le_mul_of_nonneg_right (by norm_num) (zpow_pos (by norm_num) _).le
  have h3 := Real.log_le_log hz hi
  have h4 := Real.log_le_log (zpow_pos (by norm_num) _) lo
  rw [Real.log_zpow] at h3 h4
  push_cast at h3 h4
  rw [abs_le]
  constructor <;> linarith

/-- The library that rounds the exact exponentials and logarithms is accurate. -/
theorem roundedLib_accurate : ExpAccurate roundedLib ∧ LogAccurate roundedLib := by
  constructor
  · intro z hz
    have h1 : (2 : ℝ) ^ (-1010 : ℤ) ≤ Real.exp z.1 :=
      zpow_le_exp (by have := Real.log_two_gt_d9; push_cast; linarith [(abs_le.1 hz).1])
    have h2 : Real.exp z.1 ≤ (2 : ℝ) ^ (1010 : ℤ) :=
      exp_le_zpow (by have := Real.log_two_gt_d9; push_cast; linarith [(abs_le.1 hz).2])
    have h3 : eta ≤ uu * Real.exp z.1 := by
      refine le_trans ?_ (mul_le_mul_of_nonneg_left h1 uu_pos.le)
      rw [eta, tiny, uu, ← zpow_add₀ (by norm_num)]
      exact zpow_le_zpow_right₀ (by norm_num) (by norm_num)
    have h4 := round_within (y := Real.exp z.1) (by rwa [abs_of_pos (Real.exp_pos _)])
    rw [abs_of_pos (Real.exp_pos _)] at h4
    exact within_mono h4 (by rw [ulp_eq]; linarith)
  · intro z hz
    have h1 := num_log_le z hz
    rw [abs_le] at h1
    change |Binary64.rnd (max (-1000) (min 1000 (Real.log z.1))) - _| ≤ _
    rw [min_eq_right h1.2, max_eq_right h1.1]
    refine (rnd_abs_error _).trans ?_
    have : uu * |Real.log z.1| ≤ ulp * |Real.log z.1| :=
      mul_le_mul_of_nonneg_right (by rw [ulp_eq]; linarith [uu_pos]) (abs_nonneg _)
    linarith

/-- C123: without a bound on the utilities it is false.  With utilities 700 and -700 the computed probability of the second
alternative is more than 1e300 times the exact one. -/
theorem float_probs_inaccurate :
    IsNum (floatLongProbs roundedLib (fun _ : Fin 2 => ()) ![.round binary64 700, .round binary64 (-700)] 1) fun p =>
      (10 : ℝ) ^ 300 * logitProb (fun _ : Fin 2 => ()) ![700, -700] 1 ≤ p := by
  refine ⟨binary64.minC, ?_, ?_⟩
  · rw [← Fl.minComp_eq]
    exact float_chosen_underflow.1
  · have h1 : logitProb (fun _ : Fin 2 => ()) ![700, -700] 1 ≤ Real.exp (-1400) := by
      unfold logitProb
      rw [div_le_iff₀ (Sep.denom_pos (fun _ : Fin 2 => ()) ![700, -700] 1)]
      have h2 : Real.exp 700 ≤ ∑ s ∈ rowsOf (fun _ : Fin 2 => ()) ((fun _ => ()) (1 : Fin 2)), Real.exp (![700, -700] s) :=
        Finset.single_le_sum (f := fun s => Real.exp ((![700, -700] : Fin 2 → ℝ) s)) (fun s _ => (Real.exp_pos _).le)
          (Sep.mem_rows.2 rfl : (0 : Fin 2) ∈ _)
      refine le_trans ?_ (mul_le_mul_of_nonneg_left h2 (Real.exp_pos _).le)
      rw [← Real.exp_add]
      norm_num
    have h3 : Real.exp (-1400) ≤ (2 : ℝ) ^ (-2000 : ℤ) :=
      exp_le_zpow (by have := Real.log_two_lt_d9; push_cast; linarith)
    have h10 : (10 : ℝ) ^ 300 ≤ (2 : ℝ) ^ (1000 : ℤ) := by
      calc (10 : ℝ) ^ 300 = ((10 : ℝ) ^ 3) ^ 100 := by rw [← pow_mul]
        _ ≤ ((2 : ℝ) ^ 10) ^ 100 := pow_le_pow_left₀ (by norm_num) (by norm_num) _
        _ = (2 : ℝ) ^ (1000 : ℕ) := by rw [← pow_mul]
        _ = _ := by rw [← zpow_natCast]; norm_num
    have h4 : (2 : ℝ) ^ (-1000 : ℤ) ≤ binary64.minC.1 := by
      change _ ≤ Binary64.rnd minCompValue
      rw [← Binary64.rnd_of_mem (Binary64.F_pow (e := -1000) (by norm_num))]
      refine Binary64.rnd_mono ?_
      rw [minCompValue, zpow_neg]
      exact inv_anti₀ (by positivity) h10
    calc (10 : ℝ) ^ 300 * _ ≤ (2 : ℝ) ^ (1000 : ℤ) * (2 : ℝ) ^ (-2000 : ℤ) :=
          mul_le_mul h10 (h1.trans h3) (Sep.prob_pos (fun _ : Fin 2 => ()) ![700, -700] 1).le (zpow_pos (by norm_num) _).le
      _ = (2 : ℝ) ^ (-1000 : ℤ) := by rw [← zpow_add₀ (by norm_num)]; norm_num
      _ ≤ _ := h4

/-! ## A table -/

/-- Choices of two people between two alternatives; a dummy variable of the first one. -/
noncomputable def exDummy (r : Fin 4) (_ : Fin 1) : binary64.Num := if r.1 % 2 = 0 then binary64.one else binary64.zero

theorem exDummy_le (r : Fin 4) (j : Fin 1) : |(exDummy r j).1| ≤ 1 ∧ 0 ≤ (exDummy r j).1 := by
  unfold exDummy
  split_ifs
  · exact ⟨by norm_num [FloatFormat.one], by norm_num [FloatFormat.one]⟩
  · exact ⟨by norm_num [FloatFormat.zero], by norm_num [FloatFormat.zero]⟩

theorem exDummy_moderate : ModerateSize (fun r : Fin 4 => r.1 / 2) exDummy (fun _ => binary64.one) 1 2 where
  terms r := by
    have h1 : binary64.one.1 = 1 := rfl
    simpa [h1] using (exDummy_le r 0).1
  utility := by norm_num
  columns := by norm_num
  rows o := by
    by_cases h0 : o = 0
    · subst h0; decide
    · by_cases h1 : o = 1
      · subst h1; decide
      · rw [Finset.card_eq_zero.2]
        · norm_num
        · refine Finset.filter_eq_empty_iff.2 fun r _ => ?_
          have := r.2
          omega
  rows_le := by norm_num

example : Within (Fl.sum ((List.finRange 4).map fun r =>
      ((Fl.fin binary64.one).mul ((Fl.fin (exDummy r 0)).sub (floatLongProbs roundedLib (fun r : Fin 4 => r.1 / 2)
        (fun r => Fl.sum (List.ofFn fun j => (Fl.fin (exDummy r j)).mul (Fl.fin binary64.one))) r))).mul
        (Fl.fin (exDummy r 0)).pick))
    (∑ r, binary64.one.1 * ((exDummy r 0).1 - logitProb (fun r : Fin 4 => r.1 / 2)
      (exactUtility exDummy fun _ => binary64.one) r) * (exDummy r 0).1) 1e-12 := by
  have h1 : binary64.one.1 = 1 := rfl
  have h := float_mnl_gradient roundedLib_accurate.1 exDummy_moderate (by norm_num) (by norm_num)
    (t := fun r => Fl.sum (List.ofFn fun j => (Fl.fin (exDummy r j)).mul (Fl.fin binary64.one)))
    (fun r => sumsTo_sum _) (choice := fun r => exDummy r 0) (weights := fun _ => binary64.one)
    (fun r => ⟨(exDummy_le r 0).2, (le_abs_self _).trans (exDummy_le r 0).1⟩) (fun r => by rw [h1]; norm_num) 0
    (fun r => (exDummy_le r 0).1.trans (by norm_num)) (sumsTo_sum _)
  refine within_mono h ?_
  have h2 : ∑ r : Fin 4, binary64.one.1 * |(exDummy r 0).1| ≤ 4 := by
    refine (Finset.sum_le_card_nsmul _ _ 1 fun r _ => ?_).trans (by simp)
    rw [h1, _root_.one_mul]
    exact (exDummy_le r 0).1
  have h3 : ∑ r : Fin 4, (|(exDummy r 0).1| + 1) ≤ 8 := by
    refine (Finset.sum_le_card_nsmul _ _ 2 fun r _ => ?_).trans (by norm_num)
    linarith [(exDummy_le r 0).1]
  have h4 : tiny ≤ 1e-30 := eta_le.trans (by norm_num [uu])
  have h5 : 0 < tiny := eta_pos
  have h6 : 6 * probError 2 (dotError 1 1) + (4 : ℕ) * ulp ≤ 2e-13 := by norm_num [probError, dotError, ulp]
  calc _ ≤ 2e-13 * (4 : ℝ) + 4 * 1e-30 * 8 := by
        refine add_le_add (mul_le_mul h6 h2 (Finset.sum_nonneg fun r _ => ?_) (by norm_num))
          (mul_le_mul (by linarith) h3 (Finset.sum_nonneg fun r _ => by positivity) (by norm_num))
        rw [h1]; positivity
    _ ≤ _ := by norm_num

end Pylogit
