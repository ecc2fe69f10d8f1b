import Verif.Lemmas.Binary64
import Verif.Spec.Float

/-!
# C94: computed probabilities and log-likelihoods are numbers, in floating point arithmetic
-/

namespace Pylogit

open Spec Fl

variable {A : FloatFormat} {n : ℕ} {O : Type} [DecidableEq O]

/-! ## Probabilities -/

theorem mem_rowsOfObs {obs : Fin n → O} {o : O} {r : Fin n} : r ∈ rowsOfObs obs o ↔ obs r = o := by
  simp [rowsOfObs]

theorem floatDenominator_atLeast (L : MathLib A) {obs : Fin n → O} {t : Fin n → Fl A} {o : O}
    (ht : ∀ s, obs s = o → t s ≠ .nan) {r : Fin n} (hr : obs r = o) {e : A.Num}
    (he : (t r).clip.exp L = .fin e) : AtLeast e.1 (floatDenominator L obs t o) := by
  refine sum_atLeast ?_ ⟨(Fl.round A 1).mul ((t r).clip.exp L), ?_, ?_⟩
  · intro x hx
    obtain ⟨s, hs, rfl⟩ := List.mem_map.1 hx
    obtain ⟨y, hy, h0⟩ := exp_clip L (ht s (mem_rowsOfObs.1 hs))
    rw [Fl.one_mul, hy]
    exact Or.inr ⟨y, rfl, h0.le⟩
  · exact List.mem_map.2 ⟨r, mem_rowsOfObs.2 hr, rfl⟩
  · rw [Fl.one_mul, he]
    exact Or.inr ⟨e, rfl, le_refl _⟩

/-- **C94**.  In floating point arithmetic, whatever the number of rows and however large, small or infinite the
transformed utilities: if none of the transformed utilities of an observation is NaN, each predicted
probability of its rows is a number, positive and at most one. -/
theorem float_probs_valid (L : MathLib A) (obs : Fin n → O) (t : Fin n → Fl A) (r : Fin n)
    (ht : ∀ s, obs s = obs r → t s ≠ .nan) : IsProb (floatLongProbs L obs t r) := by
  obtain ⟨e, he, h0⟩ := exp_clip L (ht r rfl)
  obtain ⟨p, hp, hp0, hp1⟩ := div_spec h0 (floatDenominator_atLeast L ht rfl he)
  unfold floatLongProbs
  rw [pick_eq, he, hp]
  simp only [guardZero]
  split_ifs with h
  · exact ⟨A.minC, minComp_eq, A.minComp_pos, A.rnd_minComp_le⟩
  · exact ⟨p, rfl, lt_of_le_of_ne hp0 (Ne.symm h), hp1⟩

theorem foldl_nan (l : List (Fl A)) : l.foldl Fl.add .nan = .nan := by
  induction l with
  | nil => rfl
  | cons x l ih => rw [List.foldl_cons]; cases x <;> exact ih

theorem add_nan (x : Fl A) : x.add .nan = .nan := by cases x <;> rfl

theorem foldl_of_mem_nan {l : List (Fl A)} (h : Fl.nan ∈ l) (acc : Fl A) :
    l.foldl Fl.add acc = .nan := by
  induction l generalizing acc with
  | nil => cases h
  | cons x l ih =>
    rcases List.mem_cons.1 h with rfl | h
    · rw [List.foldl_cons, add_nan, foldl_nan]
    · exact ih h _

/-- **C94**.  A NaN spoils the probabilities of its own observation, and of no other: a probability is NaN exactly
when a transformed utility of the same observation is. -/
theorem float_probs_nan_iff (L : MathLib A) (obs : Fin n → O) (t : Fin n → Fl A) (r : Fin n) :
    floatLongProbs L obs t r = .nan ↔ ∃ s, obs s = obs r ∧ t s = .nan := by
  constructor
  · intro h
    by_contra hc
    obtain ⟨y, hy, -⟩ := float_probs_valid L obs t r fun s hs hn => hc ⟨s, hs, hn⟩
    rw [h] at hy
    cases hy
  · rintro ⟨s, hs, hn⟩
    have hd : floatDenominator L obs t (obs r) = .nan := by
      refine foldl_of_mem_nan (List.mem_map.2 ⟨s, mem_rowsOfObs.2 hs, ?_⟩) _
      rw [hn, clip_nan, Fl.one_mul]
      rfl
    unfold floatLongProbs
    have : ∀ x : Fl A, x.div .nan = .nan := fun x => by cases x <;> rfl
    rw [pick_eq, hd, this]
    rfl

/-- The probability reported for the chosen alternative is a number between zero and one (it has no guard
against underflow, so that zero is possible; see `float_chosen_underflow`). -/
theorem float_chosen_prob (L : MathLib A) (obs : Fin n → O) (t : Fin n → Fl A) (r : Fin n)
    (ht : ∀ s, obs s = obs r → t s ≠ .nan) :
    IsNum (floatChosenProbs L obs t [r] (obs r)) fun y => 0 ≤ y ∧ y ≤ 1 := by
  obtain ⟨e, he, h0⟩ := exp_clip L (ht r rfl)
  obtain ⟨p, hp, hp0, hp1⟩ := div_spec h0 (floatDenominator_atLeast L ht rfl he)
  refine ⟨p, ?_, hp0, hp1⟩
  unfold floatChosenProbs
  rw [← hp]
  simp only [sum, List.map_cons, List.map_nil, List.foldl_cons, List.foldl_nil, Fl.one_mul,
    Fl.zero_add, he]

/-! ## Log-likelihood -/

/-- A natural number of moderate size as a number of the format, and its negative. -/
private theorem nat_num (A : FloatFormat) {k : ℕ} (hk : k ≤ 2 ^ 53) :
    ∃ x : A.Num, x.1 = -(k : ℝ) := by
  have h1 : |(k : ℤ)| ≤ 2 ^ 53 := by rw [Nat.abs_cast]; exact_mod_cast hk
  have h2 := A.int k h1
  push_cast at h2
  refine ⟨⟨-(k : ℝ), by rw [A.neg, h2], ?_⟩, rfl⟩
  rw [abs_neg, Nat.abs_cast]
  have := A.num_le_maxComp h1
  exact_mod_cast this

/-- **C94**.  In floating point arithmetic, with choices 0 or 1 and weights between 0 and `W`, the log-likelihood
of any table of `n` rows with `1000 W n ≤ 2^53` (nine million million rows for unit weights) is a finite
number, never positive, provided no transformed utility is NaN. -/
theorem float_log_likelihood (L : MathLib A) (obs : Fin n → O) (t choice weights : Fin n → Fl A)
    (W : ℕ) (hn : n * (1000 * W) ≤ 2 ^ 53) (ht : ∀ r, t r ≠ .nan)
    (hc : ∀ r, IsNum (choice r) fun y => y = 0 ∨ y = 1)
    (hw : ∀ r, IsNum (weights r) fun y => 0 ≤ y ∧ y ≤ W) :
    IsNum (floatLogLikelihood L obs t choice weights) fun y => -(n * (1000 * W) : ℝ) ≤ y ∧ y ≤ 0 := by
  have hterm : ∀ r, IsNum ((choice r).mul ((weights r).mul ((floatLongProbs L obs t r).log L)))
      fun y => -(1000 * W : ℝ) ≤ y ∧ y ≤ 0 := by
    intro r
    have hn1 : 1 ≤ n := by have := r.2; omega
    have hW : 1000 * W ≤ 2 ^ 53 := le_trans (Nat.le_mul_of_pos_left _ hn1) hn
    obtain ⟨b, hb⟩ := nat_num A hW
    have hb' : b.1 = -(1000 * W : ℝ) := by rw [hb]; push_cast; ring
    obtain ⟨p, hp, hp0, hp1⟩ := float_probs_valid L obs t r fun s _ => ht s
    obtain ⟨c, hc, hc01⟩ := hc r
    obtain ⟨w, hw, hw0, hw1⟩ := hw r
    have hl : (Fl.fin p).log L = .fin (L.log p) := by
      simp only [Fl.log, if_neg hp0.ne', if_neg (not_lt.2 hp0.le)]
    have h1 := L.log_nonpos p hp0 hp1
    have h2 := L.log_ge p hp0
    obtain ⟨m, hm, -, hm1, hm2⟩ := round_between (a := b) (b := A.zero) (r := w.1 * (L.log p).1)
      (by rw [hb']; nlinarith) (mul_nonpos_of_nonneg_of_nonpos hw0 h1)
    have hm2 : m.1 ≤ 0 := hm2
    obtain ⟨m', hm', -, hm1', hm2'⟩ := round_between (a := b) (b := A.zero) (r := c.1 * m.1)
      (by
        have : b.1 ≤ 0 := hm1.trans hm2
        rcases hc01 with h | h <;> rw [h] <;> nlinarith)
      (mul_nonpos_of_nonneg_of_nonpos (by rcases hc01 with h | h <;> rw [h] <;> norm_num) hm2)
    refine ⟨m', ?_, by rw [← hb']; exact hm1', hm2'⟩
    rw [hp, hc, hw, hl]
    simp only [Fl.mul, hm, hm']
  have key : ∀ (l : List (Fin n)) (k : ℕ) (acc : A.Num), k + l.length ≤ n →
      -(k * (1000 * W) : ℝ) ≤ acc.1 → acc.1 ≤ 0 →
      IsNum ((l.map fun r => (choice r).mul
        ((weights r).mul ((floatLongProbs L obs t r).log L))).foldl Fl.add (.fin acc))
        fun y => -(((k + l.length : ℕ) : ℝ) * (1000 * W)) ≤ y ∧ y ≤ 0 := by
    intro l
    induction l with
    | nil => intro k acc _ h1 h2; exact ⟨acc, rfl, by simpa using h1, h2⟩
    | cons r l ih =>
      intro k acc hk h1 h2
      obtain ⟨x, hx, hx1, hx2⟩ := hterm r
      rw [List.length_cons] at hk ⊢
      have hk1 : (k + 1) * (1000 * W) ≤ 2 ^ 53 :=
        le_trans (Nat.mul_le_mul_right _ (by omega)) hn
      obtain ⟨b, hb⟩ := nat_num A hk1
      obtain ⟨y, hy, -, hy1, hy2⟩ := round_between (a := b) (b := A.zero) (r := acc.1 + x.1)
        (by rw [hb]; push_cast; linarith) (by change _ ≤ (0 : ℝ); linarith)
      have := ih (k + 1) y (by omega) (by rw [hb] at hy1; push_cast at hy1 ⊢; exact hy1) hy2
      simp only [List.map_cons, List.foldl_cons, hx]
      have e : (Fl.fin acc).add (.fin x) = .fin y := hy
      rw [e]
      rw [show k + (l.length + 1) = k + 1 + l.length by ring]
      exact this
  have := key (List.finRange n) 0 A.zero (by simp) (by simp [FloatFormat.zero]) (le_refl _)
  simp only [List.length_finRange, _root_.zero_add] at this
  unfold floatLogLikelihood Fl.sum
  rw [Fl.round_zero]
  exact this

/-! ## Transformed utilities -/

theorem guardPos_ne {x : Fl A} (h : x ≠ .nan) : x.guardPos ≠ .nan ∧ x.guardPos ≠ .pinf := by
  cases x <;> simp_all [guardPos, maxComp_eq]

theorem guardPos_atLeast {a : ℝ} (ha : a ≤ 1) {x : Fl A} (h : AtLeast a x) :
    ∃ y : A.Num, x.guardPos = .fin y ∧ a ≤ y.1 := by
  rcases h with rfl | ⟨y, rfl, hy⟩
  · exact ⟨A.maxC, maxComp_eq, ha.trans A.rnd_maxComp_pos⟩
  · exact ⟨y, rfl, hy⟩

/-- The two final guards turn anything but NaN into a finite number. -/
theorem guards_finite {x : Fl A} (h : x ≠ .nan) : IsFinite x.guardPos.guardNeg := by
  cases x with
  | nan => exact absurd rfl h
  | pinf => exact ⟨A.maxC, by simp [guardPos, guardNeg, maxComp_eq]⟩
  | ninf => exact ⟨A.negNum A.maxC, by simp [guardPos, guardNeg, maxComp_eq, neg_fin]⟩
  | fin x => exact ⟨x, rfl⟩

theorem addIntercept_ne {x : Fl A} (h : x ≠ .nan) {c : Option (Fl A)}
    (hc : ∀ y, c = some y → IsFinite y) : x.addIntercept c ≠ .nan := by
  cases c with
  | none => exact h
  | some c =>
    obtain ⟨c, rfl⟩ := hc c rfl
    simp only [addIntercept, pick_eq]
    cases x with
    | nan => exact absurd rfl h
    | pinf => simp [Fl.add]
    | ninf => simp [Fl.add]
    | fin x => exact round_ne_nan _ _

theorem log_ne_nan (L : MathLib A) {x : Fl A} (h : AtLeast 0 x) :
    x.log L ≠ .nan := by
  rcases h with rfl | ⟨y, rfl, hy⟩
  · simp [Fl.log]
  · simp only [Fl.log]
    split_ifs with h1 h2
    · simp
    · exact absurd hy (not_le.2 h2)
    · simp

theorem sub_one_atLeast {x : Fl A} (h : AtLeast 1 x) : AtLeast 0 (x.sub (.round A 1)) := by
  rw [round_one, sub, neg_fin]
  rcases h with rfl | ⟨y, rfl, hy⟩
  · exact Or.inl rfl
  · have : (A.negNum A.one).1 = -1 := rfl
    obtain ⟨z, hz, -, h0, -⟩ := round_between (a := A.zero) (b := y) (r := y.1 + (A.negNum A.one).1)
      (by rw [this]; change (0 : ℝ) ≤ _; linarith) (by rw [this]; linarith)
    exact Or.inr ⟨z, hz, h0⟩

theorem exp_one_atLeast (L : MathLib A) {x : Fl A} (h : AtLeast 0 x) : AtLeast 1 (x.exp L) := by
  rcases h with rfl | ⟨y, rfl, hy⟩
  · exact Or.inl rfl
  · exact L.exp_one_le y hy

/-- **C94**.  The clog-log transformation of a utility that is not NaN is not NaN. -/
theorem float_clog_ne_nan (L : MathLib A) {v : Fl A} (hv : v ≠ .nan) {c : Option (Fl A)}
    (hc : ∀ y, c = some y → IsFinite y) : floatClog L v c ≠ .nan := by
  unfold floatClog
  refine addIntercept_ne (guardPos_ne ?_).1 hc
  split_ifs with h
  · exact (exp_atLeast L hv).ne_nan
  · have := log_ne_nan L (sub_one_atLeast (exp_one_atLeast L (exp_atLeast L hv)))
    generalize ((((v.exp L).exp L).sub (Fl.round A 1)).log L) = x at this
    cases x <;> simp_all [guardNeg, maxComp_eq, neg_fin]

theorem negOne_mul_ne {v : Fl A} (hv : v ≠ .nan) : (Fl.round A (-1)).mul v ≠ .nan := by
  cases v with
  | nan => exact absurd rfl hv
  | fin v => rw [negOne_mul_fin]; simp
  | pinf => rw [round_neg_one]; norm_num [Fl.mul, scaleInf, FloatFormat.negOne]; simp
  | ninf => rw [round_neg_one]; norm_num [Fl.mul, scaleInf, FloatFormat.negOne]; simp

theorem naturalShape_fin (L : MathLib A) {s : Fl A} (hs : s ≠ .nan) :
    ∃ y : A.Num, (s.exp L).guardPos.pick = .fin y ∧ 0 ≤ y.1 := by
  rw [pick_eq]
  exact guardPos_atLeast zero_le_one (exp_atLeast L hs)

/-- One plus a non-negative finite number is finite and at least one. -/
theorem one_add_fin {e : A.Num} (he : 0 ≤ e.1) :
    ∃ y : A.Num, (Fl.round A 1).add (.fin e) = .fin y ∧ 1 ≤ y.1 := by
  rw [round_one]
  have h1 : A.rnd (A.one.1 + e.1) ≤ A.big := by
    refine le_trans (A.mono ?_) A.big_add_one
    have := (abs_le.1 e.2.2).2
    change 1 + e.1 ≤ _
    linarith
  rcases round_above (a := A.one) (r := A.one.1 + e.1) (by linarith) with h | ⟨y, h, -, hy⟩
  · rcases round_cases A (A.one.1 + e.1) with ⟨-, h'⟩ | ⟨h', -⟩ | ⟨x, h', -⟩
    · exact absurd h1 (not_le.2 h')
    · rw [h'] at h; cases h
    · rw [h'] at h; cases h
  · exact ⟨y, h, hy⟩

theorem intercept_fin {c : Option (Fl A)} (hc : ∀ y, c = some y → IsFinite y) :
    ∃ i : A.Num, (c.getD (.round A 0)).pick = .fin i := by
  rw [pick_eq]
  cases c with
  | none => exact ⟨A.zero, by simp⟩
  | some c => exact hc c rfl

theorem fin_sub_ne (i : A.Num) {x : Fl A} (hx : x ≠ .nan) : (Fl.fin i).sub x ≠ .nan := by
  cases x with
  | nan => exact absurd rfl hx
  | pinf => simp [sub, Fl.neg, Fl.add]
  | ninf => simp [sub, Fl.neg, Fl.add]
  | fin x => rw [sub, neg_fin]; exact round_ne_nan _ _

/-- **C94**.  The scobit transformation of a utility that is not NaN, with a shape parameter that is not NaN, is a
finite number. -/
theorem float_scobit_finite (L : MathLib A) {v s : Fl A} (hv : v ≠ .nan) (hs : s ≠ .nan)
    {c : Option (Fl A)} (hc : ∀ y, c = some y → IsFinite y) : IsFinite (floatScobit L v s c) := by
  unfold floatScobit
  simp only
  refine guards_finite ?_
  obtain ⟨k, hk, hk0⟩ := naturalShape_fin L hs
  obtain ⟨e, he, he0⟩ := guardPos_atLeast zero_le_one (exp_atLeast L (negOne_mul_ne hv))
  obtain ⟨x, hx, hx1⟩ := one_add_fin he0
  obtain ⟨i, hi⟩ := intercept_fin hc
  obtain ⟨q, hq, hq1⟩ := guardPos_atLeast le_rfl (x := (Fl.fin x).pow L (.fin k))
    (L.one_le_pow x k hx1 hk0)
  rw [hk, he, hx, hi, hq]
  exact fin_sub_ne i (log_ne_nan L (sub_one_atLeast (Or.inr ⟨q, rfl, hq1⟩)))

theorem log1p_spec (L : MathLib A) {x : Fl A} (h : AtLeast 0 x) :
    (x.log1p L = .pinf ∧ x = .pinf) ∨
      ∃ e y : A.Num, x = .fin e ∧ x.log1p L = .fin y ∧ 0 ≤ y.1 := by
  rcases h with rfl | ⟨e, rfl, he⟩
  · exact Or.inl ⟨rfl, rfl⟩
  · refine Or.inr ⟨e, L.log1p e, rfl, ?_, L.log1p_nonneg e he⟩
    simp only [Fl.log1p]
    rw [if_neg (by linarith), if_neg (by linarith)]

private theorem sub_fin_ne {x : Fl A} (hx : x ≠ .nan) (y : A.Num) : x.sub (.fin y) ≠ .nan := by
  rw [sub, neg_fin]
  cases x with
  | nan => exact absurd rfl hx
  | pinf => simp [Fl.add]
  | ninf => simp [Fl.add]
  | fin x => exact round_ne_nan _ _

private theorem uneven_sum_ne (L : MathLib A) (v k : A.Num) (hk : 0 ≤ k.1) :
    ((Fl.fin v).add
      ((((Fl.fin (A.negNum v)).exp L).log1p L).ifInf (.fin (A.negNum v)))).sub
      (((((Fl.fin (A.negNum k)).mul (.fin v)).exp L).log1p L).ifInf
        ((Fl.fin (A.negNum k)).mul (.fin v))) ≠ .nan := by
  have hw : (Fl.fin (A.negNum k)).mul (.fin v) ≠ .nan := round_ne_nan _ _
  obtain ⟨y1, h1, hv1⟩ : ∃ y1 : A.Num,
      (((Fl.fin (A.negNum v)).exp L).log1p L).ifInf (.fin (A.negNum v)) = .fin y1 ∧
      (v.1 < 0 → 0 ≤ y1.1) := by
    rcases log1p_spec L (exp_atLeast L (x := .fin (A.negNum v)) (by simp)) with
      ⟨h, -⟩ | ⟨e, y, -, h, h0⟩
    · refine ⟨A.negNum v, by rw [h]; rfl, fun hv => ?_⟩
      change 0 ≤ -v.1
      linarith
    · exact ⟨y, by rw [h]; rfl, fun _ => h0⟩
  rw [h1]
  have hsum : (Fl.fin v).add (.fin y1) ≠ .nan := round_ne_nan _ _
  rcases log1p_spec L (exp_atLeast L hw) with ⟨h, he⟩ | ⟨e, y, -, h, h0⟩
  · rw [h]
    change ((Fl.fin v).add (.fin y1)).sub ((Fl.fin (A.negNum k)).mul (.fin v)) ≠ .nan
    rcases round_cases A ((A.negNum k).1 * v.1) with ⟨hr, hlt⟩ | ⟨hr, -⟩ | ⟨x, hr, -⟩
    · have hv : v.1 < 0 := by
        by_contra hv
        have : (A.negNum k).1 * v.1 ≤ 0 :=
          mul_nonpos_of_nonpos_of_nonneg (by change -k.1 ≤ 0; linarith) (not_lt.1 hv)
        have := A.mono this
        rw [A.rnd_zero] at this
        have := A.one_le_big
        linarith
      obtain ⟨z, hz, -⟩ := round_between (a := v) (b := y1) (r := v.1 + y1.1)
        (by linarith [hv1 hv]) (by linarith)
      have e1 : (Fl.fin v).add (.fin y1) = .fin z := hz
      have e2 : (Fl.fin (A.negNum k)).mul (.fin v) = .pinf := hr
      rw [e1, e2]
      simp [sub, Fl.neg, Fl.add]
    · have e2 : (Fl.fin (A.negNum k)).mul (.fin v) = .ninf := hr
      rw [e2] at he
      simp [Fl.exp] at he
    · have e2 : (Fl.fin (A.negNum k)).mul (.fin v) = .fin x := hr
      rw [e2]
      exact sub_fin_ne hsum x
  · rw [h]
    exact sub_fin_ne hsum y

/-- **C94**.  The uneven transformation of a utility that is not NaN, with a shape parameter that is not NaN, is NaN
in exactly one case: an infinite utility with a natural shape parameter that underflows to zero.  In
particular it is never NaN for finite utilities. -/
theorem float_uneven_nan_iff (L : MathLib A) {v s : Fl A} (hv : v ≠ .nan) (hs : s ≠ .nan)
    {c : Option (Fl A)} (hc : ∀ y, c = some y → IsFinite y) :
    floatUneven L v s c = .nan ↔ v = .pinf ∧ s.exp L = .round A 0 := by
  obtain ⟨k, hk, hk0⟩ := naturalShape_fin L hs
  have hz : k.1 = 0 ↔ s.exp L = .round A 0 := by
    rw [pick_eq] at hk
    rw [Fl.round_zero]
    cases he : s.exp L with
    | pinf =>
      rw [he, guardPos, maxComp_eq] at hk
      rw [← Fl.fin.inj hk]
      have h1 : (1 : ℝ) ≤ A.maxC.1 := A.rnd_maxComp_pos
      simp only [reduceCtorEq, iff_false]
      linarith
    | ninf => rw [he] at hk; cases hk
    | nan => rw [he] at hk; cases hk
    | fin x =>
      rw [he] at hk
      rw [← Fl.fin.inj hk]
      simp only [Fl.fin.injEq]
      exact ⟨fun h => Subtype.ext h, fun h => congrArg Subtype.val h⟩
  have main : ∀ w : Fl A, w ≠ .nan → w.addIntercept c ≠ .nan := fun w hw => addIntercept_ne hw hc
  cases v with
  | nan => exact absurd rfl hv
  | ninf =>
    simp only [reduceCtorEq, false_and, iff_false]
    unfold floatUneven
    refine main _ ?_
    rw [maxComp_eq, neg_fin]
    simp
  | pinf =>
    simp only [true_and]
    rw [← hz]
    have e1 : (Fl.round A (-1)).mul (.pinf : Fl A) = .ninf := by
      rw [round_neg_one]; norm_num [Fl.mul, scaleInf, FloatFormat.negOne]
    have e3 : (Fl.fin (A.negNum k)).mul (.pinf : Fl A) = .scaleInf (-k.1) := rfl
    obtain ⟨y0, hy0⟩ : ∃ y : A.Num, ((Fl.ninf : Fl A).exp L).log1p L = .fin y := by
      rcases log1p_spec L (exp_atLeast L (x := .ninf) (by simp)) with ⟨-, h⟩ | ⟨e, y, -, h, h0⟩
      · simp [Fl.exp] at h
      · exact ⟨y, h⟩
    have hf : floatUneven L .pinf s c = (((Fl.pinf : Fl A).add (.fin y0)).sub
        ((((Fl.scaleInf (-k.1) : Fl A).exp L).log1p L).ifInf
          (.scaleInf (-k.1)))).guardPos.guardNeg.addIntercept c := by
      unfold floatUneven
      simp only
      rw [hk, negOne_mul_fin, e1, e3, hy0]
      rfl
    rw [hf]
    by_cases h0 : k.1 = 0
    · simp only [h0, neg_zero, iff_true]
      have : (Fl.scaleInf 0 : Fl A) = .nan := if_pos rfl
      rw [this]
      cases c <;> rfl
    · simp only [h0, iff_false]
      have : (Fl.scaleInf (-k.1) : Fl A) = .ninf := by
        rw [Fl.scaleInf, if_neg (by simpa using h0), if_neg (by linarith)]
      rw [this, hy0]
      refine main _ ?_
      obtain ⟨z, hz⟩ := guards_finite (x := ((Fl.pinf : Fl A).add (.fin y0)).sub (.fin y0))
        (sub_fin_ne (by simp [Fl.add]) y0)
      change (((Fl.pinf : Fl A).add (.fin y0)).sub (.fin y0)).guardPos.guardNeg ≠ .nan
      rw [hz]
      simp
  | fin v =>
    simp only [reduceCtorEq, false_and, iff_false]
    unfold floatUneven
    simp only
    refine main _ ?_
    rw [hk, negOne_mul_fin, negOne_mul_fin]
    obtain ⟨z, hz⟩ := guards_finite (uneven_sum_ne L v k hk0)
    rw [hz]
    simp

theorem guardZero_pos {x : A.Num} (hx : 0 ≤ x.1) :
    ∃ y : A.Num, (Fl.fin x).guardZero = .fin y ∧ 0 < y.1 := by
  simp only [guardZero]
  split_ifs with h
  · exact ⟨A.minC, minComp_eq, A.minComp_pos⟩
  · exact ⟨x, rfl, lt_of_le_of_ne hx (Ne.symm h)⟩

theorem floatExpEta_pos (L : MathLib A) {e : Fl A} (he : e ≠ .nan) :
    ∃ y : A.Num, floatExpEta L e = .fin y ∧ 0 < y.1 := by
  obtain ⟨x, hx, hx0⟩ := guardPos_atLeast zero_le_one (exp_atLeast L he)
  unfold floatExpEta
  rw [hx]
  exact guardZero_pos hx0

/-- The natural shape parameters of the asymmetric model are numbers between zero and one. -/
theorem float_shape_valid (L : MathLib A) {eta : List (Fl A)} (h : ∀ x ∈ eta, x ≠ .nan)
    (pos : Option (Fin eta.length)) : IsNum (floatShape L eta pos) fun y => 0 ≤ y ∧ y ≤ 1 := by
  have hnn : ∀ x ∈ eta.map (floatExpEta L), AtLeast 0 x := by
    intro x hx
    obtain ⟨e, he, rfl⟩ := List.mem_map.1 hx
    obtain ⟨y, hy, hy0⟩ := floatExpEta_pos L (h e he)
    exact Or.inr ⟨y, hy, hy0.le⟩
  have h1 : AtLeast (0 : ℝ) (.fin A.one : Fl A) := Or.inr ⟨A.one, rfl, zero_le_one⟩
  unfold floatShape
  cases pos with
  | none =>
    have hd : AtLeast A.one.1 ((Fl.sum (eta.map (floatExpEta L))).add (.fin A.one)) :=
      (sum_nonneg hnn).add' (Or.inr ⟨A.one, rfl, le_refl _⟩)
    obtain ⟨y, hy, h0, h1⟩ := div_spec (x := A.one) zero_lt_one hd
    simp only [round_one]
    exact ⟨y, hy, h0, h1⟩
  | some i =>
    obtain ⟨e, he, he0⟩ := floatExpEta_pos L (h (eta.get i) (List.get_mem _ _))
    have hs : AtLeast e.1 (Fl.sum (eta.map (floatExpEta L))) :=
      sum_atLeast hnn ⟨_, List.mem_map.2 ⟨eta.get i, List.get_mem _ _, rfl⟩,
        Or.inr ⟨e, he, le_refl _⟩⟩
    obtain ⟨y, hy, h0, h1⟩ := div_spec he0 (hs.add h1)
    simp only [round_one, he]
    exact ⟨y, hy, h0, h1⟩

theorem log_guard_finite (L : MathLib A) {x : A.Num} (hx : 0 ≤ x.1) :
    ∃ y : A.Num, ((Fl.fin x).log L).guardNeg = .fin y := by
  simp only [Fl.log]
  split_ifs with h1 h2
  · exact ⟨A.negNum A.maxC, by simp only [guardNeg, maxComp_eq, neg_fin]⟩
  · exact absurd hx (not_le.2 h2)
  · exact ⟨_, rfl⟩

/-- **C94**.  The asymmetric transformation of a finite utility, with a natural shape parameter between zero and one
and at least two alternatives, is a finite number. -/
theorem float_asym_finite (L : MathLib A) {J : ℕ} (hJ : 2 ≤ J) (hJ' : J ≤ 2 ^ 53) {v c : Fl A}
    (hv : IsFinite v) (hc : IsNum c fun y => 0 ≤ y ∧ y ≤ 1) {i : Option (Fl A)}
    (hi : ∀ y, i = some y → IsFinite y) : IsFinite (floatAsym L J v c i) := by
  obtain ⟨v, rfl⟩ := hv
  obtain ⟨c, rfl, hc0, hc1⟩ := hc
  have hJr : (2 : ℝ) ≤ J := by exact_mod_cast hJ
  have hJn : ∃ d : A.Num, Fl.round A ((J : ℝ) - 1) = .fin d ∧ d.1 = (J : ℝ) - 1 := by
    have hk : |((J : ℤ) - 1)| ≤ 2 ^ 53 := by
      rw [abs_of_nonneg (by omega)]; omega
    have h1 := A.int _ hk
    have h2 := A.num_le_maxComp hk
    push_cast at h1 h2
    refine ⟨⟨(J : ℝ) - 1, h1, ?_⟩, ?_, rfl⟩
    · rw [abs_of_nonneg (by linarith)]; exact h2
    · exact round_num (⟨(J : ℝ) - 1, h1, by rw [abs_of_nonneg (by linarith)]; exact h2⟩ : A.Num)
  obtain ⟨d, hd, hd1⟩ := hJn
  obtain ⟨x, hx, -, hx0, hx1⟩ := round_between (a := A.zero) (b := A.one)
    (r := A.one.1 + (A.negNum c).1) (by change (0 : ℝ) ≤ 1 + -c.1; linarith)
    (by change 1 + -c.1 ≤ (1 : ℝ); linarith)
  have e1 : (Fl.round A 1).sub (.fin c) = .fin x := by
    rw [round_one, sub, neg_fin]; exact hx
  obtain ⟨q, hq, -, hq0, -⟩ := round_between (a := A.zero) (b := A.one) (r := x.1 / d.1)
    (div_nonneg hx0 (by rw [hd1]; linarith))
    ((div_le_one (by rw [hd1]; linarith)).2 (by
      have : x.1 ≤ 1 := hx1
      rw [hd1]; linarith))
  have e2 : (Fl.fin x).div (.fin d) = .fin q := by
    simp only [Fl.div]
    rw [if_neg (by rw [hd1]; linarith), hq]
  obtain ⟨l1, hl1⟩ := log_guard_finite L hc0
  obtain ⟨l2, hl2⟩ := log_guard_finite L hq0
  have hb : ∀ (p : Prop) (l : A.Num), ∃ y : A.Num,
      (open Classical in if p then Fl.round A 1 else Fl.round A 0).mul (.fin l) = .fin y ∧
        (p → y = l) ∧ (¬ p → y = A.zero) := by
    intro p l
    by_cases hp : p
    · exact ⟨l, by rw [if_pos hp, Fl.one_mul], fun _ => rfl, fun h => absurd hp h⟩
    · refine ⟨A.zero, ?_, fun h => absurd h hp, fun _ => rfl⟩
      rw [if_neg hp, Fl.round_zero]
      simp only [Fl.mul]
      rw [show A.zero.1 * l.1 = 0 from zero_mul _, Fl.round_zero]
  obtain ⟨m1, hm1, a1, b1⟩ := hb ((Fl.fin v).ge (Fl.round A 0)) l1
  obtain ⟨m2, hm2, a2, b2⟩ := hb ((Fl.fin v).lt (Fl.round A 0)) l2
  have hm : ∃ m : A.Num, (Fl.fin m1).add (.fin m2) = .fin m := by
    by_cases hlt : (Fl.fin v).lt (Fl.round A 0)
    · refine ⟨m2, ?_⟩
      rw [b1 (fun h => h.2.2 hlt)]
      have := Fl.zero_add (.fin m2 : Fl A)
      rwa [Fl.round_zero] at this
    · refine ⟨m1, ?_⟩
      rw [b2 hlt]
      simp only [Fl.add]
      rw [show m1.1 + A.zero.1 = m1.1 from add_zero _, round_num]
  obtain ⟨m, hm⟩ := hm
  unfold floatAsym
  simp only [pick_eq]
  rw [hd, e1, e2, hl1, hl2]
  rw [hm1, hm2, hm]
  refine guards_finite (addIntercept_ne ?_ hi)
  rw [if_neg (by simp)]
  exact fin_sub_ne l1 (round_ne_nan _ _)

/-! ## Models -/

/-- **C94**.  With finite systematic utilities, finite outside intercepts and shape parameters that are not NaN, the
probabilities of the multinomial, clog-log, scobit, uneven and asymmetric models are positive numbers
that are at most one: extreme values never lead to NaN, to an infinity, to zero or to more than one. -/
theorem float_models_valid (L : MathLib A) (obs : Fin n → O) {v shape : Fin n → Fl A}
    {icpt : Fin n → Option (Fl A)} {eta : List (Fl A)} {pos : Fin n → Option (Fin eta.length)}
    (hv : ∀ r, IsFinite (v r)) (hs : ∀ r, shape r ≠ .nan)
    (hi : ∀ r y, icpt r = some y → IsFinite y) (he : ∀ x ∈ eta, x ≠ .nan) {J : ℕ} (hJ : 2 ≤ J)
    (hJ' : J ≤ 2 ^ 53) (r : Fin n) :
    IsProb (floatLongProbs L obs v r) ∧
    IsProb (floatLongProbs L obs (fun r => floatClog L (v r) (icpt r)) r) ∧
    IsProb (floatLongProbs L obs (fun r => floatScobit L (v r) (shape r) (icpt r)) r) ∧
    IsProb (floatLongProbs L obs (fun r => floatUneven L (v r) (shape r) (icpt r)) r) ∧
    IsProb (floatLongProbs L obs
      (fun r => floatAsym L J (v r) (floatShape L eta (pos r)) (icpt r)) r) := by
  have hn : ∀ r, v r ≠ .nan := fun r => by obtain ⟨y, h⟩ := hv r; simp [h]
  have hf : ∀ {x : Fl A}, IsFinite x → x ≠ .nan := fun ⟨y, h⟩ => by simp [h]
  refine ⟨?_, ?_, ?_, ?_, ?_⟩
  · exact float_probs_valid L obs _ r fun s _ => hn s
  · exact float_probs_valid L obs _ r fun s _ => float_clog_ne_nan L (hn s) (hi s)
  · exact float_probs_valid L obs _ r fun s _ => hf (float_scobit_finite L (hn s) (hs s) (hi s))
  · refine float_probs_valid L obs _ r fun s _ h => ?_
    have := ((float_uneven_nan_iff L (hn s) (hs s) (hi s)).1 h).1
    obtain ⟨y, hy⟩ := hv s
    rw [hy] at this
    cases this
  · exact float_probs_valid L obs _ r fun s _ =>
      hf (float_asym_finite L hJ hJ' (hv s) (float_shape_valid L he _) (hi s))

/-! ## Non-vacuity: binary64 arithmetic with correctly rounded functions -/

/-- Probabilities of two observations, the utilities of the first being infinite. -/
example : IsProb (floatLongProbs roundedLib ![0, 0, 1] ![.pinf, .ninf, .round binary64 3] 0) :=
  float_probs_valid roundedLib ![0, 0, 1] _ 0 fun s _ => by
    fin_cases s
    · simp
    · simp
    · exact Fl.round_ne_nan _ _

/-- A NaN in the first of two observations. -/
example :
    let t : Fin 3 → Fl binary64 := ![.nan, .round binary64 1, .round binary64 3]
    floatLongProbs roundedLib ![0, 0, 1] t 1 = .nan ∧ floatLongProbs roundedLib ![0, 0, 1] t 2 ≠ .nan := by
  intro t
  refine ⟨(float_probs_nan_iff roundedLib ![0, 0, 1] t 1).2 ⟨0, rfl, rfl⟩, fun h => ?_⟩
  obtain ⟨s, hs, hn⟩ := (float_probs_nan_iff roundedLib ![0, 0, 1] t 2).1 h
  fin_cases s
  · simp at hs
  · simp at hs
  · exact Fl.round_ne_nan _ _ hn

/-- The chosen probability and the log-likelihood of a table of two rows. -/
example :
    let t : Fin 2 → Fl binary64 := ![.pinf, .ninf]
    (IsNum (floatChosenProbs roundedLib (fun _ => ()) t [1] ()) fun y => 0 ≤ y ∧ y ≤ 1) ∧
      IsNum (floatLogLikelihood roundedLib (fun _ => ()) t ![.round binary64 0, .round binary64 1]
        fun _ => .round binary64 1) fun y => -((2 : ℕ) * (1000 * (1 : ℕ)) : ℝ) ≤ y ∧ y ≤ 0 := by
  intro t
  have ht : ∀ s, t s ≠ .nan := fun s => by fin_cases s <;> simp [t]
  refine ⟨float_chosen_prob roundedLib (fun _ => ()) t 1 fun s _ => ht s,
    float_log_likelihood roundedLib (fun _ => ()) t _ _ 1 (by norm_num) ht ?_ ?_⟩
  · intro r
    fin_cases r
    · exact ⟨binary64.zero, Fl.round_zero, Or.inl rfl⟩
    · exact ⟨binary64.one, Fl.round_one, Or.inr rfl⟩
  · intro r
    exact ⟨binary64.one, Fl.round_one, zero_le_one, by simp [FloatFormat.one]⟩

/-- Utilities of a million and minus a million, with extreme shape parameters. -/
example (r : Fin 2) :
    let v : Fin 2 → Fl binary64 := ![.fin (binary64.intNum 1000000 (by norm_num)),
      .fin (binary64.intNum (-1000000) (by norm_num))]
    let shape : Fin 2 → Fl binary64 := ![.pinf, .ninf]
    IsProb (floatLongProbs roundedLib (fun _ => ()) v r) ∧
    IsProb (floatLongProbs roundedLib (fun _ => ()) (fun r => floatClog roundedLib (v r) none) r) ∧
    IsProb (floatLongProbs roundedLib (fun _ => ()) (fun r => floatScobit roundedLib (v r) (shape r) none) r) ∧
    IsProb (floatLongProbs roundedLib (fun _ => ()) (fun r => floatUneven roundedLib (v r) (shape r) none) r) ∧
    IsProb (floatLongProbs roundedLib (fun _ => ())
      (fun r => floatAsym roundedLib 2 (v r)
        (floatShape roundedLib [.pinf] ((![none, some 0] : Fin 2 → Option (Fin 1)) r)) none) r) := by
  intro v shape
  refine float_models_valid roundedLib (fun _ => ()) (v := v) (shape := shape) (icpt := fun _ => none)
    (eta := [.pinf]) (pos := ![none, some 0]) ?_ ?_ ?_ ?_ le_rfl (by norm_num) r
  · intro r; fin_cases r <;> exact ⟨_, rfl⟩
  · intro r; fin_cases r <;> simp [shape]
  · intro r y h; cases h
  · intro x hx; simp only [List.mem_singleton] at hx; simp [hx]

/-- The exceptional case of the uneven transformation. -/
example : floatUneven roundedLib .pinf .ninf none = .nan :=
  (float_uneven_nan_iff roundedLib (by simp) (by simp) (by simp)).2 ⟨rfl, rfl⟩

end Pylogit
