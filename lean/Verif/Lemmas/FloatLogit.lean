import Verif.Lemmas.FloatError
import Verif.Lemmas.Separation
import Verif.Props.FloatMixed

/-!
# Rounding errors of logit probabilities
-/

namespace Pylogit

open Spec Fl Finset

/-! ## Numbers close to each other -/

/-- Two numbers whose logarithms differ by at most `d`. -/
def Close (d x y : ℝ) : Prop := x ≤ Real.exp d * y ∧ y ≤ Real.exp d * x

theorem Close.trans {a b x y z : ℝ} (h : Close a x y) (h' : Close b y z) : Close (a + b) x z := by
  constructor
  · rw [Real.exp_add, mul_assoc]
    exact h.1.trans (mul_le_mul_of_nonneg_left h'.1 (Real.exp_pos a).le)
  · rw [Real.exp_add, mul_comm (Real.exp a), mul_assoc]
    exact h'.2.trans (mul_le_mul_of_nonneg_left h.2 (Real.exp_pos b).le)

theorem close_of_rel {x y ρ : ℝ} (hy : 0 ≤ y) (h0 : 0 ≤ ρ) (h1 : ρ ≤ 1 / 2) (h : |x - y| ≤ ρ * y) : Close (2 * ρ) x y := by
  rw [abs_le] at h
  have he := Real.add_one_le_exp (2 * ρ)
  constructor
  · have := mul_le_mul_of_nonneg_right he hy
    nlinarith
  · have hx : (1 - ρ) * y ≤ x := by linarith
    have h2 : 1 ≤ Real.exp (2 * ρ) * (1 - ρ) := by
      refine le_trans ?_ (mul_le_mul_of_nonneg_right he (by linarith))
      nlinarith
    calc y = 1 * y := (_root_.one_mul y).symm
      _ ≤ Real.exp (2 * ρ) * (1 - ρ) * y := mul_le_mul_of_nonneg_right h2 hy
      _ = Real.exp (2 * ρ) * ((1 - ρ) * y) := by ring
      _ ≤ _ := mul_le_mul_of_nonneg_left hx (Real.exp_pos _).le

theorem close_exp {s t d : ℝ} (h : |s - t| ≤ d) : Close d (Real.exp s) (Real.exp t) := by
  rw [abs_le] at h
  constructor <;> rw [← Real.exp_add] <;> exact Real.exp_le_exp.2 (by linarith)

theorem close_sum {ι : Type} {s : Finset ι} {f g : ι → ℝ} {d : ℝ} (h : ∀ i ∈ s, Close d (f i) (g i)) :
    Close d (∑ i ∈ s, f i) (∑ i ∈ s, g i) := by
  constructor <;> rw [Finset.mul_sum]
  · exact Finset.sum_le_sum fun i hi => (h i hi).1
  · exact Finset.sum_le_sum fun i hi => (h i hi).2

theorem Close.pos {d x y : ℝ} (h : Close d x y) (hy : 0 < y) : 0 < x := by
  have := hy.trans_le h.2
  exact (pos_iff_pos_of_mul_pos this).1 (Real.exp_pos _)

theorem Close.div {a b x x' y y' : ℝ} (h : Close a x x') (h' : Close b y y') (hy : 0 < y) (hy' : 0 < y') (hx : 0 < x)
    (hx' : 0 < x') : Close (a + b) (x / y) (x' / y') := by
  constructor
  · rw [Real.exp_add, ← mul_div_assoc, div_le_div_iff₀ hy hy']
    calc x * y' ≤ Real.exp a * x' * (Real.exp b * y) := mul_le_mul h.1 h'.2 hy'.le (by positivity)
      _ = _ := by ring
  · rw [Real.exp_add, ← mul_div_assoc, div_le_div_iff₀ hy' hy]
    calc x' * y ≤ Real.exp a * x * (Real.exp b * y') := mul_le_mul h.2 h'.1 hy.le (by positivity)
      _ = _ := by ring

theorem Close.log {d x y : ℝ} (h : Close d x y) (hx : 0 < x) (hy : 0 < y) : |Real.log x - Real.log y| ≤ d := by
  have h1 := Real.log_le_log hx h.1
  have h2 := Real.log_le_log hy h.2
  rw [Real.log_mul (Real.exp_pos _).ne' hy.ne', Real.log_exp] at h1
  rw [Real.log_mul (Real.exp_pos _).ne' hx.ne', Real.log_exp] at h2
  rw [abs_le]
  constructor <;> linarith

theorem Close.abs {d x y : ℝ} (h : Close d x y) (hy : 0 ≤ y) (hd : 0 ≤ d) (hd1 : d ≤ 1) : |x - y| ≤ 2 * d * y := by
  have he : Real.exp d ≤ 1 + 2 * d := by
    have := Real.abs_exp_sub_one_le (x := d) (by rwa [abs_of_nonneg hd])
    rw [abs_of_nonneg hd, abs_le] at this
    linarith
  have h1 : x ≤ (1 + 2 * d) * y := h.1.trans (mul_le_mul_of_nonneg_right he hy)
  have h2 : (1 - d) * y ≤ x := by
    have h3 : Real.exp (-d) * y ≤ x := by
      have := mul_le_mul_of_nonneg_left h.2 (Real.exp_pos (-d)).le
      rwa [← mul_assoc, ← Real.exp_add, neg_add_cancel, Real.exp_zero, _root_.one_mul] at this
    refine le_trans (mul_le_mul_of_nonneg_right ?_ hy) h3
    have := Real.add_one_le_exp (-d)
    linarith
  rw [abs_le]
  have := mul_nonneg hd hy
  constructor <;> nlinarith

/-! ## Constants -/

theorem ulp_pos : 0 < ulp := by unfold ulp; positivity

theorem rows_ulp {m : ℕ} (h : m ≤ 2 ^ 20) : (m : ℝ) * ulp ≤ 2 ^ (-32 : ℤ) := by
  have : (m : ℝ) ≤ 2 ^ 20 := by exact_mod_cast h
  calc (m : ℝ) * ulp ≤ 2 ^ 20 * ulp := mul_le_mul_of_nonneg_right this ulp_pos.le
    _ = 2 ^ (-32 : ℤ) := by norm_num [ulp]

theorem exp_301_le : Real.exp 301 ≤ (2 : ℝ) ^ (435 : ℤ) :=
  exp_le_zpow (by have := Real.log_two_gt_d9; push_cast; linarith)

theorem le_exp_301 : (2 : ℝ) ^ (-435 : ℤ) ≤ Real.exp (-301) :=
  zpow_le_exp (by have := Real.log_two_gt_d9; push_cast; linarith)

/-! ## Probabilities -/

variable {n k : ℕ} {O : Type} [DecidableEq O]

theorem float_probs_close {L : MathLib binary64} (hL : ExpAccurate L) {obs : Fin n → O} {t : Fin n → Fl binary64}
    {v : Fin n → ℝ} {V a : ℝ} {m : ℕ} {r : Fin n} (ht : ∀ s, obs s = obs r → Within (t s) (v s) a)
    (hv : ∀ s, obs s = obs r → |v s| ≤ V) (hV : V ≤ 300) (ha : a ≤ 1) (hm : Finset.card {s | obs s = obs r} ≤ m)
    (hm' : m ≤ 2 ^ 20) :
    IsNum (floatLongProbs L obs t r) fun p => 0 < p ∧ Close (probError m a) p (logitProb obs v r) := by
  have hulp := ulp_pos
  have hulp1 : ulp ≤ 1 / 1000 := by norm_num [ulp]
  have key : ∀ s, obs s = obs r → ∃ e : binary64.Num, (t s).clip.exp L = .fin e ∧
      Close (2 * ulp + a) e.1 (Real.exp (v s)) ∧ (2 : ℝ) ^ (-436 : ℤ) ≤ e.1 ∧ e.1 ≤ (2 : ℝ) ^ (436 : ℤ) := by
    intro s hs
    obtain ⟨τ, hτ, hτ'⟩ := ht s hs
    have h1 := hv s hs
    have h301 : |τ.1| ≤ 301 := by
      have := abs_sub_abs_le_abs_sub τ.1 (v s); linarith
    obtain ⟨e, he, he'⟩ := hL τ (h301.trans (by norm_num))
    refine ⟨e, ?_, (close_of_rel (Real.exp_pos _).le hulp.le (by linarith) he').trans (close_exp hτ'), ?_⟩
    · rw [hτ, clip_fin (h301.trans (by norm_num))]
      exact he
    · rw [abs_le] at h301 he'
      have u1 : Real.exp τ.1 ≤ (2 : ℝ) ^ (435 : ℤ) := (Real.exp_le_exp.2 h301.2).trans exp_301_le
      have u2 : (2 : ℝ) ^ (-435 : ℤ) ≤ Real.exp τ.1 := le_exp_301.trans (Real.exp_le_exp.2 h301.1)
      have e1 : (2 : ℝ) ^ (436 : ℤ) = 2 * (2 : ℝ) ^ (435 : ℤ) := by
        rw [show (436 : ℤ) = 435 + 1 by norm_num, zpow_add₀ (by norm_num), zpow_one]; ring
      have e2 : (2 : ℝ) ^ (-436 : ℤ) = 1 / 2 * (2 : ℝ) ^ (-435 : ℤ) := by
        rw [show (-436 : ℤ) = -435 + -1 by norm_num, zpow_add₀ (by norm_num), mul_comm]; norm_num
      rw [e1, e2]
      have hp := Real.exp_pos τ.1
      have hs := mul_le_mul_of_nonneg_right hulp1 hp.le
      generalize Real.exp τ.1 = E at *
      have hX := u2.trans' (zpow_pos (by norm_num : (0 : ℝ) < 2) _).le
      generalize (2 : ℝ) ^ (435 : ℤ) = X at *
      generalize (2 : ℝ) ^ (-435 : ℤ) = Y at *
      constructor <;> linarith [he'.1, he'.2]
  have : Inhabited binary64.Num := ⟨binary64.zero⟩
  choose! e he hc hlo hhi using key
  set l := rowsOfObs obs (obs r) with hl
  have hlen : l.length ≤ m := by rw [hl, length_rowsOfObs]; exact hm
  have hden : floatDenominator L obs t (obs r) = Fl.sum (l.map fun s => .fin (e s)) := by
    unfold floatDenominator
    congr 1
    refine List.map_congr_left fun s hs => ?_
    rw [Fl.one_mul, he s (mem_rowsOfObs.1 hs)]
  have hsumle : (l.map fun s => |(e s).1| + 0).sum ≤ (2 : ℝ) ^ (456 : ℤ) := by
    have := List.sum_le_card_nsmul (l.map fun s => |(e s).1| + 0) ((2 : ℝ) ^ (436 : ℤ)) (by
      intro y hy
      obtain ⟨s, hs, rfl⟩ := List.mem_map.1 hy
      have h := mem_rowsOfObs.1 hs
      have h0 : (0 : ℝ) ≤ (e s).1 := (zpow_pos (by norm_num) _).le.trans (hlo s h)
      rw [abs_of_nonneg h0, add_zero]
      exact hhi s h)
    refine this.trans ?_
    rw [List.length_map, nsmul_eq_mul]
    have h20 : (l.length : ℝ) ≤ 2 ^ 20 := by exact_mod_cast hlen.trans hm'
    calc (l.length : ℝ) * (2 : ℝ) ^ (436 : ℤ) ≤ 2 ^ 20 * (2 : ℝ) ^ (436 : ℤ) :=
          mul_le_mul_of_nonneg_right h20 (zpow_pos (by norm_num) _).le
      _ = _ := by rw [show (456 : ℤ) = 20 + 436 by norm_num, zpow_add₀ (by norm_num)]; norm_num
  obtain ⟨S, hS, hS'⟩ := sumsTo_within (g := fun s => (e s).1) (e := fun _ => 0) (sumsTo_sum (l.map fun s => .fin (e s)))
    (hlen.trans (hm'.trans (by norm_num))) (fun s _ => within_fin (e s))
    (hsumle.trans (zpow_le_zpow_right₀ (by norm_num) (by norm_num)))
  have habs : (l.map fun s => |(e s).1| + 0).sum = (l.map fun s => (e s).1).sum := by
    congr 1
    refine List.map_congr_left fun s hs => ?_
    rw [add_zero, abs_of_nonneg ((zpow_pos (by norm_num) _).le.trans (hlo s (mem_rowsOfObs.1 hs)))]
  rw [habs] at hS' hsumle
  have hEpos : ∀ s, obs s = obs r → 0 < (e s).1 := fun s hs => (zpow_pos (by norm_num) _).trans_le (hlo s hs)
  rw [hl, sum_rowsOfObs] at hS' hsumle
  have hz : (l.map fun _ => (0 : ℝ)).sum = 0 := by simp
  rw [hz, _root_.zero_add] at hS'
  have hmu := rows_ulp hm'
  have hT : (e r).1 ≤ ∑ s with obs s = obs r, (e s).1 :=
    Finset.single_le_sum (f := fun s => (e s).1) (fun s hs => (hEpos s (by simpa using hs)).le) (by simp)
  have hTD : Close (2 * ulp + a) (∑ s with obs s = obs r, (e s).1) (∑ s with obs s = obs r, Real.exp (v s)) :=
    close_sum fun s hs => hc s (by simpa using hs)
  have hD : 0 < ∑ s with obs s = obs r, Real.exp (v s) :=
    Finset.sum_pos (fun s _ => Real.exp_pos _) ⟨r, by simp⟩
  have hler := hEpos r rfl
  have hP : logitProb obs v r = Real.exp (v r) / ∑ s with obs s = obs r, Real.exp (v s) := rfl
  generalize (∑ s with obs s = obs r, (e s).1) = T at *
  have hlm : (l.length : ℝ) ≤ m := by exact_mod_cast hlen
  have hT0 : 0 ≤ T := hler.le.trans hT
  have hrel : |S.1 - T| ≤ m * ulp * T := by
    refine hS'.trans ?_
    gcongr
  have hmu1 : (m : ℝ) * ulp ≤ 1 / 2 := hmu.trans (by norm_num)
  have hST : Close (2 * (m * ulp)) S.1 T := close_of_rel hT0 (by positivity) hmu1 hrel
  have hSD := hST.trans hTD
  have hS0 : 0 < S.1 := hSD.pos hD
  have hq := (hc r rfl).div hSD hS0 hD hler (Real.exp_pos _)
  rw [abs_le] at hrel
  have hShi : S.1 ≤ (2 : ℝ) ^ (457 : ℤ) := by
    rw [show (457 : ℤ) = 456 + 1 by norm_num, zpow_add₀ (by norm_num), zpow_one]
    have h1 := mul_le_mul_of_nonneg_right hmu1 hT0
    generalize (2 : ℝ) ^ (456 : ℤ) = X at *
    linarith [hrel.2]
  have hqlo : (2 : ℝ) ^ (-893 : ℤ) ≤ (e r).1 / S.1 := by
    rw [le_div_iff₀ hS0]
    refine le_trans ?_ (hlo r rfl)
    calc (2 : ℝ) ^ (-893 : ℤ) * S.1 ≤ (2 : ℝ) ^ (-893 : ℤ) * (2 : ℝ) ^ (457 : ℤ) :=
          mul_le_mul_of_nonneg_left hShi (zpow_pos (by norm_num) _).le
      _ = _ := by rw [← zpow_add₀ (by norm_num)]; norm_num
  have hqhi : (e r).1 / S.1 ≤ 2 := by
    rw [div_le_iff₀ hS0]
    nlinarith
  have hq0 : 0 < (e r).1 / S.1 := div_pos hler hS0
  obtain ⟨p, hp, hp'⟩ := round_within (y := (e r).1 / S.1) (by
    rw [abs_of_pos hq0]
    refine hqhi.trans ?_
    calc (2 : ℝ) = 2 ^ (1 : ℤ) := by norm_num
      _ ≤ _ := zpow_le_zpow_right₀ (by norm_num) (by norm_num))
  have heta : eta ≤ uu * ((e r).1 / S.1) := by
    refine le_trans ?_ (mul_le_mul_of_nonneg_left hqlo uu_pos.le)
    rw [eta, tiny, uu, ← zpow_add₀ (by norm_num)]
    exact zpow_le_zpow_right₀ (by norm_num) (by norm_num)
  have hpq : |p.1 - (e r).1 / S.1| ≤ ulp * ((e r).1 / S.1) := by
    rw [abs_of_pos hq0] at hp'
    rw [ulp_eq]
    linarith
  have hpc := close_of_rel hq0.le hulp.le (by linarith) hpq
  have hp0 : 0 < p.1 := hpc.pos hq0
  refine ⟨p, ?_, hp0, ?_⟩
  · unfold floatLongProbs
    rw [hden, hS, pick_eq, he r rfl]
    have hd : (Fl.fin (e r)).div (.fin S) = .fin p := by
      rw [← hp]
      exact if_neg hS0.ne'
    rw [hd]
    exact if_neg hp0.ne'
  · rw [hP]
    have := hpc.trans hq
    rw [show 2 * ulp + (2 * ulp + a + (2 * (↑m * ulp) + (2 * ulp + a))) = probError m a by unfold probError; ring] at this
    exact this

end Pylogit
