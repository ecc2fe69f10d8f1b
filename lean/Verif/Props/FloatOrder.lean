import Verif.Props.FloatSum

/-!
# C96: in floating point arithmetic larger utilities do not get smaller probabilities
-/

namespace Pylogit

open Spec Fl

variable {A : FloatFormat} {n : ℕ} {O : Type} [DecidableEq O]

/-- The exponential function is monotone on the interval of clipped utilities. -/
def ExpMono (L : MathLib A) : Prop :=
  ∀ x y a b : A.Num, |x.1| ≤ 700 → |y.1| ≤ 700 → x.1 ≤ y.1 → L.exp x = .fin a → L.exp y = .fin b →
    a.1 ≤ b.1

theorem roundedLib_mono : ExpMono roundedLib := by
  intro x y a b _ _ h ha hb
  have key : ∀ (r : ℝ) (c : binary64.Num), Fl.round binary64 r = .fin c → c.1 = binary64.rnd r := by
    intro r c hc
    rcases round_cases binary64 r with ⟨h, -⟩ | ⟨h, -⟩ | ⟨z, h, hz⟩
    · rw [h] at hc; cases hc
    · rw [h] at hc; cases hc
    · rw [h] at hc; rw [← Fl.fin.inj hc, hz]
  rw [key _ a ha, key _ b hb]
  exact binary64.mono (Real.exp_le_exp.2 h)

theorem fl_clip_mono {x y : Fl A} (hx : x ≠ .nan) (hy : y ≠ .nan) (h : ¬ y.lt x) {a b : A.Num}
    (ha : x.clip = .fin a) (hb : y.clip = .fin b) : a.1 ≤ b.1 := by
  have ha7 : |a.1| ≤ 700 := by
    obtain ⟨z, hz, h7⟩ := clip_spec hx; rw [ha] at hz; rwa [← Fl.fin.inj hz] at h7
  have hb7 : |b.1| ≤ 700 := by
    obtain ⟨z, hz, h7⟩ := clip_spec hy; rw [hb] at hz; rwa [← Fl.fin.inj hz] at h7
  have h1 : A.n700.1 = 700 := rfl
  have h2 : A.neg700.1 = -700 := rfl
  have hpinf : (Fl.pinf : Fl A).clip = .fin A.n700 := by simp [clip, lt]
  have hninf : (Fl.ninf : Fl A).clip = .fin A.neg700 := by simp [clip, lt]
  have hfin : ∀ z c : A.Num, (Fl.fin z).clip = .fin c → c.1 = max (-700) (min 700 z.1) := by
    intro z c hc
    simp only [clip, round_700, round_neg700, lt, h1, h2] at hc
    split_ifs at hc with h3 h4
    · rw [← Fl.fin.inj hc, h1, min_eq_left h3.le]; norm_num
    · rw [← Fl.fin.inj hc, h2, min_eq_right (by linarith), max_eq_left h4.le]
    · rw [← Fl.fin.inj hc, min_eq_right (not_lt.1 h3), max_eq_right (not_lt.1 h4)]
  cases x with
  | nan => exact absurd rfl hx
  | ninf =>
    rw [hninf] at ha
    rw [← Fl.fin.inj ha, h2]
    exact (abs_le.1 hb7).1
  | pinf =>
    cases y with
    | nan => exact absurd rfl hy
    | ninf => exact absurd trivial h
    | fin y => exact absurd trivial h
    | pinf => rw [ha] at hb; rw [Fl.fin.inj hb]
  | fin x =>
    cases y with
    | nan => exact absurd rfl hy
    | ninf => exact absurd trivial h
    | pinf =>
      rw [hpinf] at hb
      rw [← Fl.fin.inj hb, h1]
      exact (abs_le.1 ha7).2
    | fin y =>
      rw [hfin x a ha, hfin y b hb]
      exact max_le_max le_rfl (min_le_min le_rfl (not_lt.1 h))

theorem exp_fl_clip_mono (L : MathLib A) (hL : ExpMono L) {x y : Fl A} (hx : x ≠ .nan) (hy : y ≠ .nan)
    (h : ¬ y.lt x) {a b : A.Num} (ha : x.clip.exp L = .fin a) (hb : y.clip.exp L = .fin b) :
    a.1 ≤ b.1 := by
  obtain ⟨c, hc, hc7⟩ := clip_spec hx
  obtain ⟨d, hd, hd7⟩ := clip_spec hy
  rw [hc] at ha
  rw [hd] at hb
  exact hL c d a b hc7 hd7 (fl_clip_mono hx hy h hc hd) ha hb

theorem round_fin {r : ℝ} {c : A.Num} (hc : Fl.round A r = .fin c) : c.1 = A.rnd r := by
  rcases round_cases A r with ⟨h, -⟩ | ⟨h, -⟩ | ⟨z, h, hz⟩
  · rw [h] at hc; cases hc
  · rw [h] at hc; cases hc
  · rw [h] at hc; rw [← Fl.fin.inj hc, hz]

/-- Quotients of positive numbers are monotone, up to the replacement of zeros. -/
theorem guarded_div_mono {a b : A.Num} (ha : 0 < a.1) (hab : a.1 ≤ b.1) {S T : Fl A}
    (hS : AtLeast a.1 S) (hT : AtLeast b.1 T)
    (hTS : S = .pinf ∨ ∃ s t : A.Num, S = .fin s ∧ T = .fin t ∧ t.1 ≤ s.1) :
    ∃ p q : A.Num, ((Fl.fin a).div S).guardZero = .fin p ∧ ((Fl.fin b).div T).guardZero = .fin q ∧
      (p.1 ≤ q.1 ∨ p.1 = A.rnd minCompValue) := by
  obtain ⟨p, hp, hp0, -⟩ := div_spec ha hS
  obtain ⟨q, hq, hq0, -⟩ := div_spec (ha.trans_le hab) hT
  rw [hp, hq]
  simp only [guardZero]
  by_cases hpz : p.1 = 0
  · obtain ⟨q', hq'⟩ : ∃ q' : A.Num, (open Classical in if q.1 = 0 then Fl.minComp A else .fin q) =
        .fin q' := by
      split_ifs
      · exact ⟨_, minComp_eq⟩
      · exact ⟨_, rfl⟩
    exact ⟨A.minC, q', by rw [if_pos hpz, minComp_eq], hq', Or.inr rfl⟩
  · have hle : p.1 ≤ q.1 := by
      rcases hTS with h | ⟨s, t, rfl, rfl, hst⟩
      · rw [h] at hp
        simp only [Fl.div, Fl.round_zero] at hp
        exact absurd (congrArg Subtype.val (Fl.fin.inj hp).symm) hpz
      · have ht0 : 0 < t.1 := by
          rcases hT with h | ⟨y, h, hy⟩
          · cases h
          · rw [Fl.fin.inj h]; exact (ha.trans_le hab).trans_le hy
        have hs0 : 0 < s.1 := ht0.trans_le hst
        simp only [Fl.div, if_neg hs0.ne'] at hp
        simp only [Fl.div, if_neg ht0.ne'] at hq
        rw [round_fin hp, round_fin hq]
        exact A.mono (div_le_div₀ (ha.trans_le hab).le hab ht0 hst)
    have hqz : q.1 ≠ 0 := fun h => hpz (le_antisymm (h ▸ hle) hp0)
    exact ⟨p, q, by rw [if_neg hpz], by rw [if_neg hqz], Or.inl hle⟩

/-- **C96**.  In floating point arithmetic, of two rows of an observation the one with the larger transformed
utility does not get the smaller probability, unless the other probability is the `1e-300` that replaces
an underflow. -/
theorem float_probs_order (L : MathLib A) (hL : ExpMono L) (obs : Fin n → O) (t : Fin n → Fl A)
    {r s : Fin n} (hrs : obs r = obs s) (ht : ∀ k, obs k = obs s → t k ≠ .nan)
    (h : ¬ (t s).lt (t r)) :
    ∃ p q : A.Num, floatLongProbs L obs t r = .fin p ∧ floatLongProbs L obs t s = .fin q ∧
      (p.1 ≤ q.1 ∨ p.1 = A.rnd minCompValue) := by
  obtain ⟨a, ha, ha0⟩ := exp_clip L (ht r hrs)
  obtain ⟨b, hb, -⟩ := exp_clip L (ht s rfl)
  have hab := exp_fl_clip_mono L hL (ht r hrs) (ht s rfl) h ha hb
  have hT := floatDenominator_atLeast L ht rfl hb
  have hS := floatDenominator_atLeast L ht hrs ha
  unfold floatLongProbs
  rw [pick_eq, pick_eq, ha, hb, hrs]
  refine guarded_div_mono ha0 hab hS hT ?_
  rcases hS with h | ⟨y, h, -⟩
  · exact Or.inl h
  · exact Or.inr ⟨y, y, h, h, le_rfl⟩

/-- One value is infinite or at least the other, for values that are not negative. -/
def UpTo (x y : Fl A) : Prop :=
  y = .pinf ∨ ∃ a b : A.Num, x = .fin a ∧ y = .fin b ∧ a.1 ≤ b.1

theorem add_upTo {x x' y y' : Fl A} (h : UpTo x x') (hy : UpTo y y') (hx0 : AtLeast 0 x)
    (hx0' : AtLeast 0 x') (hy0 : AtLeast 0 y) (hy0' : AtLeast 0 y') :
    UpTo (x.add y) (x'.add y') := by
  rcases h with rfl | ⟨a, a', rfl, rfl, ha⟩
  · left
    rcases hy0' with rfl | ⟨b, rfl, -⟩ <;> rfl
  · rcases hy with rfl | ⟨b, b', rfl, rfl, hb⟩
    · exact Or.inl rfl
    · have ha0 : 0 ≤ a.1 := by
        rcases hx0 with h | ⟨z, h, hz⟩
        · cases h
        · rw [Fl.fin.inj h]; exact hz
      have hb0 : 0 ≤ b.1 := by
        rcases hy0 with h | ⟨z, h, hz⟩
        · cases h
        · rw [Fl.fin.inj h]; exact hz
      have hle := A.mono (add_le_add ha hb)
      have h0 := A.mono (add_nonneg ha0 hb0)
      rw [A.rnd_zero] at h0
      have hbig := A.one_le_big
      change UpTo (Fl.round A (a.1 + b.1)) (Fl.round A (a'.1 + b'.1))
      rcases round_cases A (a.1 + b.1) with ⟨h, h1⟩ | ⟨h, h1⟩ | ⟨z, h, hz⟩ <;>
        rcases round_cases A (a'.1 + b'.1) with ⟨h', h1'⟩ | ⟨h', h1'⟩ | ⟨z', h', hz'⟩
      · exact Or.inl h'
      · linarith
      · have := (abs_le.1 z'.2.2).2; linarith
      · linarith
      · linarith
      · linarith
      · exact Or.inl h'
      · linarith
      · exact Or.inr ⟨z, z', h, h', by linarith⟩

theorem foldl_upTo {ι : Type} (l : List ι) (f g : ι → Fl A) (hf : ∀ i ∈ l, AtLeast 0 (f i))
    (hg : ∀ i ∈ l, AtLeast 0 (g i)) (hfg : ∀ i ∈ l, UpTo (f i) (g i)) (x y : Fl A) (hx : AtLeast 0 x)
    (hy : AtLeast 0 y) (hxy : UpTo x y) :
    UpTo ((l.map f).foldl Fl.add x) ((l.map g).foldl Fl.add y) := by
  induction l generalizing x y with
  | nil => exact hxy
  | cons i l ih =>
    rw [List.map_cons, List.map_cons, List.foldl_cons, List.foldl_cons]
    refine ih (fun j hj => hf j (by simp [hj])) (fun j hj => hg j (by simp [hj]))
      (fun j hj => hfg j (by simp [hj])) _ _ ?_ ?_ ?_
    · exact AtLeast.add (a := A.zero) hx (hf i (by simp))
    · exact AtLeast.add (a := A.zero) hy (hg i (by simp))
    · exact add_upTo hxy (hfg i (by simp)) hx hy (hf i (by simp)) (hg i (by simp))

/-- **C96**.  In floating point arithmetic, raising transformed utilities of an observation's other rows does not
raise the probability of a row, unless it underflows and is replaced by `1e-300`. -/
theorem float_probs_others (L : MathLib A) (hL : ExpMono L) (obs : Fin n → O) (t t' : Fin n → Fl A)
    {r : Fin n} (ht : ∀ k, obs k = obs r → t k ≠ .nan) (ht' : ∀ k, obs k = obs r → t' k ≠ .nan)
    (hr : t' r = t r) (h : ∀ k, obs k = obs r → ¬ (t' k).lt (t k)) :
    ∃ p q : A.Num, floatLongProbs L obs t' r = .fin p ∧ floatLongProbs L obs t r = .fin q ∧
      (p.1 ≤ q.1 ∨ p.1 = A.rnd minCompValue) := by
  obtain ⟨a, ha, ha0⟩ := exp_clip L (ht r rfl)
  have hT := floatDenominator_atLeast L ht rfl ha
  have hS := floatDenominator_atLeast L ht' (r := r) rfl (by rw [hr]; exact ha)
  have key : UpTo (floatDenominator L obs t (obs r)) (floatDenominator L obs t' (obs r)) := by
    have hpos : ∀ (t : Fin n → Fl A), (∀ k, obs k = obs r → t k ≠ .nan) → ∀ i ∈ rowsOfObs obs (obs r),
        AtLeast 0 ((Fl.round A 1).mul ((t i).clip.exp L)) := by
      intro t ht i hi
      obtain ⟨y, hy, h0⟩ := exp_clip L (ht i (mem_rowsOfObs.1 hi))
      rw [Fl.one_mul, hy]
      exact Or.inr ⟨y, rfl, h0.le⟩
    have hz : AtLeast 0 (Fl.round A 0) := Or.inr ⟨A.zero, Fl.round_zero, le_rfl⟩
    refine foldl_upTo _ _ _ (hpos t ht) (hpos t' ht') ?_ _ _ hz hz
      (Or.inr ⟨A.zero, A.zero, Fl.round_zero, Fl.round_zero, le_rfl⟩)
    intro i hi
    have hi := mem_rowsOfObs.1 hi
    obtain ⟨y, hy, -⟩ := exp_clip L (ht i hi)
    obtain ⟨y', hy', -⟩ := exp_clip L (ht' i hi)
    rw [Fl.one_mul, Fl.one_mul]
    exact Or.inr ⟨y, y', hy, hy', exp_fl_clip_mono L hL (ht i hi) (ht' i hi) (h i hi) hy hy'⟩
  unfold floatLongProbs
  rw [pick_eq, pick_eq, hr, ha]
  refine guarded_div_mono ha0 le_rfl hS hT ?_
  rcases key with h | ⟨x, y, hx, hy, hxy⟩
  · exact Or.inl h
  · exact Or.inr ⟨y, x, hy, hx, hxy⟩

/-- C96: a table both theorems apply to. -/
example : ∃ p q : binary64.Num,
    floatLongProbs roundedLib (fun _ : Fin 2 => ()) ![.round binary64 1, .round binary64 2] 0 = .fin p ∧
    floatLongProbs roundedLib (fun _ : Fin 2 => ()) ![.round binary64 1, .round binary64 2] 1 = .fin q ∧
    (p.1 ≤ q.1 ∨ p.1 = binary64.rnd minCompValue) := by
  have e1 : Fl.round binary64 1 = .fin (binary64.intNum 1 (by norm_num)) := by
    rw [← round_num]; simp [FloatFormat.intNum]
  have e2 : Fl.round binary64 2 = .fin (binary64.intNum 2 (by norm_num)) := by
    rw [← round_num]; simp [FloatFormat.intNum]
  refine float_probs_order roundedLib roundedLib_mono (fun _ : Fin 2 => ()) _ rfl ?_ ?_
  · intro k _; fin_cases k <;> exact Fl.round_ne_nan _ _
  · simp only [Matrix.cons_val_zero, Matrix.cons_val_one]
    rw [e1, e2]
    simp [lt, FloatFormat.intNum]

/-! ## The scobit transformation -/

/-- The scobit transformation does not tell utilities apart whose negative overflows the exponential: the
branch meant for them, scobit.py:200-203, is never taken since infinities have been replaced before. -/
theorem float_scobit_saturates (L : MathLib A) (v w s : Fl A) (c : Option (Fl A))
    (hv : ((Fl.round A (-1)).mul v).exp L = .pinf) (hw : ((Fl.round A (-1)).mul w).exp L = .pinf) :
    floatScobit L v s c = floatScobit L w s c := by
  unfold floatScobit
  simp only
  rw [hv, hw]
  generalize (((Fl.round A 1).add (Fl.pinf : Fl A).guardPos).pow L (s.exp L).guardPos.pick) = x
  cases x <;> simp [guardPos, maxComp_eq]

/-- The exponential of a number below -38 is too small to be added to one. -/
theorem roundedLib_small (x : binary64.Num) (hx : x.1 ≤ -38) :
    ∃ y : binary64.Num, roundedLib.exp x = .fin y ∧ 0 ≤ y.1 ∧ y.1 ≤ (2 : ℝ) ^ (-54 : ℤ) := by
  obtain ⟨y, hy, -, h0, h1⟩ := Fl.round_between (a := binary64.zero)
    (b := Binary64.powNum (-54) (by norm_num) (by norm_num)) (Real.exp_pos x.1).le
    ((Real.exp_le_exp.2 hx).trans Binary64.exp_38.le)
  exact ⟨y, hy, h0, h1⟩

theorem pow_54_lt : (2 : ℝ) ^ (-54 : ℤ) < (2 : ℝ) ^ (-53 : ℤ) :=
  zpow_lt_zpow_right₀ (by norm_num) (by norm_num)

/-- **The scobit transformation ignores utilities from 38 on**: in binary64 arithmetic all of them are transformed to
`1e300`, whatever the shape parameter (the exact value is close to the utility when the shape parameter is
zero).  Alternatives with utilities 38 and 50 thus have the same predicted probability. -/
theorem float_scobit_jump (v : binary64.Num) (hv : 38 ≤ v.1) (s : Fl binary64) (hs : s ≠ .nan) :
    floatScobit roundedLib (.fin v) s none = .maxComp binary64 := by
  obtain ⟨k, hk, hk0⟩ := naturalShape_fin roundedLib hs
  obtain ⟨y, hy, hy0, hy1⟩ := roundedLib_small (binary64.negNum v) (by
    change -v.1 ≤ -38
    linarith)
  have e1 : (Fl.round binary64 1).add (.fin y) = .fin binary64.one := by
    rw [round_one, ← round_one]
    have h := Binary64.rnd_near_one hy0 (lt_of_le_of_lt hy1 pow_54_lt)
    have h' : binary64.rnd (binary64.one.1 + y.1) = 1 := h
    simp only [round_one, Fl.add]
    rw [Fl.round_of_abs_le (by rw [h', abs_one]; exact binary64.one_le_big)]
    exact congrArg _ (Subtype.ext h')
  have e2 : (Fl.fin binary64.one).pow roundedLib (.fin k) = .fin binary64.one := by
    change Fl.round binary64 ((1 : ℝ) ^ k.1) = _
    rw [Real.one_rpow, round_one]
  have e3 : (Fl.fin binary64.one).sub (.round binary64 1) = .fin binary64.zero := by
    rw [round_one, Fl.sub, neg_fin]
    simp only [Fl.add]
    rw [show binary64.one.1 + (binary64.negNum binary64.one).1 = 0 from add_neg_cancel _, Fl.round_zero]
  unfold floatScobit
  simp only
  rw [hk, negOne_mul_fin, show (Fl.fin (binary64.negNum v)).exp roundedLib = .fin y from hy]
  simp only [guardPos]
  rw [e1, e2]
  simp only
  rw [e3]
  simp [Fl.log, FloatFormat.zero, Fl.sub, Fl.neg, Fl.add, guardNeg, maxComp_eq]

/-- **The clog-log transformation ignores utilities below -38**: in binary64 arithmetic all of them are transformed to
`-1e300` (the exact value is close to the utility). -/
theorem float_clog_jump (v : binary64.Num) (hv : v.1 ≤ -38) :
    floatClog roundedLib (.fin v) none = (Fl.maxComp binary64).neg := by
  obtain ⟨y, hy, hy0, hy1⟩ := roundedLib_small v hv
  have e1 : (Fl.fin y).exp roundedLib = .fin binary64.one := by
    have h54 : (2 : ℝ) ^ (-54 : ℤ) < 1 := by norm_num
    have h := (abs_le.1 (Real.abs_exp_sub_one_sub_id_le (x := y.1)
      (by rw [abs_of_nonneg hy0]; linarith))).2
    have h1 : Real.exp y.1 - 1 < (2 : ℝ) ^ (-53 : ℤ) := by
      have h2 : y.1 ^ 2 ≤ (2 : ℝ) ^ (-54 : ℤ) * (2 : ℝ) ^ (-54 : ℤ) := by
        rw [pow_two]; exact mul_le_mul hy1 hy1 hy0 (by positivity)
      have h3 : (2 : ℝ) ^ (-54 : ℤ) + (2 : ℝ) ^ (-54 : ℤ) * (2 : ℝ) ^ (-54 : ℤ) < (2 : ℝ) ^ (-53 : ℤ) := by
        norm_num
      linarith
    have h2 := Binary64.rnd_near_one (y := Real.exp y.1 - 1) (by linarith [Real.one_le_exp hy0]) h1
    rw [add_sub_cancel] at h2
    have h' : binary64.rnd (Real.exp y.1) = 1 := h2
    change Fl.round binary64 (Real.exp y.1) = _
    rw [Fl.round_of_abs_le (by rw [h', abs_one]; exact binary64.one_le_big)]
    exact congrArg _ (Subtype.ext h')
  have e3 : (Fl.fin binary64.one).sub (.round binary64 1) = .fin binary64.zero := by
    rw [round_one, Fl.sub, neg_fin]
    simp only [Fl.add]
    rw [show binary64.one.1 + (binary64.negNum binary64.one).1 = 0 from add_neg_cancel _, Fl.round_zero]
  have e4 : ¬ (Fl.fin v).ge (.round binary64 3.7) := by
    obtain ⟨z, hz, -, hz0, -⟩ := Fl.round_between (A := binary64) (a := binary64.zero)
      (b := binary64.intNum 4 (by norm_num)) (r := 3.7) (by norm_num [FloatFormat.zero])
      (by norm_num [FloatFormat.intNum])
    rw [hz]
    rintro ⟨-, -, h⟩
    apply h
    have hz0 : 0 ≤ z.1 := hz0
    change v.1 < z.1
    linarith
  unfold floatClog
  simp only
  rw [if_neg e4, show (Fl.fin v).exp roundedLib = .fin y from hy, e1, e3]
  simp [Fl.log, FloatFormat.zero, guardNeg, guardPos, maxComp_eq, neg_fin, addIntercept]

/-- C96: two alternatives with utilities 38 and 50, the transformation of the scobit model and the clog-log
transformation of -38 and -50. -/
example (s : Fl binary64) (hs : s ≠ .nan) :
    floatScobit roundedLib (.fin (binary64.intNum 38 (by norm_num))) s none =
      floatScobit roundedLib (.fin (binary64.intNum 50 (by norm_num))) s none ∧
    floatClog roundedLib (.fin (binary64.intNum (-38) (by norm_num))) none =
      floatClog roundedLib (.fin (binary64.intNum (-50) (by norm_num))) none := by
  rw [float_scobit_jump _ (by norm_num [FloatFormat.intNum]) s hs,
    float_scobit_jump _ (by norm_num [FloatFormat.intNum]) s hs,
    float_clog_jump _ (by norm_num [FloatFormat.intNum]),
    float_clog_jump _ (by norm_num [FloatFormat.intNum])]
  exact ⟨rfl, rfl⟩

/-- The scobit transformation with shape parameter zero, given the guarded exponential of the negative utility. -/
theorem float_scobit_zero_shape {v e : binary64.Num} (he1 : 1 ≤ e.1)
    (he : ((Fl.fin (binary64.negNum v)).exp roundedLib).guardPos = .fin e) :
    ∃ x q : binary64.Num, x.1 = binary64.rnd (1 + e.1) ∧ q.1 = binary64.rnd (x.1 - 1) ∧ 0 < q.1 ∧
      floatScobit roundedLib (.fin v) (.round binary64 0) none =
        .fin (binary64.negNum (Binary64.nearNum (Real.log q.1))) := by
  obtain ⟨x, hx, -⟩ := one_add_fin (A := binary64) (e := e) (by linarith)
  have hx' : x.1 = binary64.rnd (1 + e.1) := by
    rw [Fl.round_one] at hx
    exact round_fin hx
  have hx2 : 2 ≤ x.1 := by
    rw [hx']
    have h2 : binary64.rnd 2 = 2 := by
      have := binary64.int 2 (by norm_num); push_cast at this; exact this
    rw [← h2]
    exact binary64.mono (by linarith)
  have e0 : ((Fl.round binary64 0).exp roundedLib).guardPos.pick = .fin binary64.one := by
    rw [Fl.round_zero, pick_eq]
    change (Fl.round binary64 (Real.exp 0)).guardPos = _
    rw [Real.exp_zero, Fl.round_one]
    rfl
  have e2 : (Fl.fin x).pow roundedLib (.fin binary64.one) = .fin x := by
    change Fl.round binary64 (x.1 ^ (1 : ℝ)) = _
    rw [Real.rpow_one, round_num]
  obtain ⟨q, hq, hq', hq1, -⟩ := Fl.round_between (A := binary64) (a := binary64.one) (b := x)
    (r := x.1 - 1) (by change (1 : ℝ) ≤ _; linarith) (by linarith)
  have hq1 : 1 ≤ q.1 := hq1
  have e3 : (Fl.fin x).sub (.round binary64 1) = .fin q := by
    rw [Fl.round_one, Fl.sub, neg_fin]
    exact hq
  refine ⟨x, q, hx', round_fin hq, by linarith, ?_⟩
  unfold floatScobit
  simp only
  rw [e0, negOne_mul_fin, he, hx, e2]
  simp only [guardPos]
  rw [e3]
  simp only [Fl.log]
  rw [if_neg (by linarith), if_neg (by linarith)]
  simp only [Option.getD_none, pick_eq, Fl.sub, neg_fin, Fl.zero_add, guardNeg]
  rfl

theorem nearNum_le {r : ℝ} {k : ℤ} (hk : |k| ≤ 1000) (h : r ≤ k) : (Binary64.nearNum r).1 ≤ k := by
  have hk' : |k| ≤ 2 ^ 53 := hk.trans (by norm_num)
  change Binary64.rnd _ ≤ _
  rw [← Binary64.rnd_of_mem (Binary64.F_int hk')]
  refine Binary64.rnd_mono ?_
  rw [abs_le] at hk
  exact max_le (by exact_mod_cast hk.1) ((min_le_right _ _).trans h)

theorem le_nearNum {r : ℝ} {k : ℤ} (hk : |k| ≤ 1000) (h : k ≤ r) : k ≤ (Binary64.nearNum r).1 := by
  have hk' : |k| ≤ 2 ^ 53 := hk.trans (by norm_num)
  change _ ≤ Binary64.rnd _
  rw [← Binary64.rnd_of_mem (Binary64.F_int hk')]
  refine Binary64.rnd_mono ?_
  rw [abs_le] at hk
  exact le_max_of_le_right (le_min (by exact_mod_cast hk.2) h)

theorem log_zpow_le {q : ℝ} {e : ℤ} (hq : 0 < q) (h : q ≤ (2 : ℝ) ^ e) (he : 0 ≤ e) :
    Real.log q ≤ e * 0.6931471808 := by
  have h1 := Real.log_le_log hq h
  rw [Real.log_zpow] at h1
  have h2 : (e : ℝ) * Real.log 2 ≤ e * 0.6931471808 :=
    mul_le_mul_of_nonneg_left Real.log_two_lt_d9.le (by exact_mod_cast he)
  linarith

theorem le_log_zpow {q : ℝ} {e : ℤ} (h : (2 : ℝ) ^ e ≤ q) (he : 0 ≤ e) :
    e * 0.6931471803 ≤ Real.log q := by
  have h1 := Real.log_le_log (zpow_pos (by norm_num) e) h
  rw [Real.log_zpow] at h1
  have h2 : (e : ℝ) * 0.6931471803 ≤ e * Real.log 2 :=
    mul_le_mul_of_nonneg_left Real.log_two_gt_d9.le (by exact_mod_cast he)
  linarith

/-- **The scobit transformation reverses the order of very negative utilities**: in binary64 arithmetic, with shape
parameter zero, the utility -720 is transformed to more than the utility -700 is. -/
theorem float_scobit_not_monotone :
    ∃ a b : binary64.Num,
      floatScobit roundedLib (.fin (binary64.intNum (-720) (by norm_num))) (.round binary64 0) none = .fin a ∧
      floatScobit roundedLib (.fin (binary64.intNum (-700) (by norm_num))) (.round binary64 0) none = .fin b ∧
      b.1 < a.1 := by
  have n720 : (binary64.negNum (binary64.intNum (-720) (by norm_num))).1 = 720 := by
    simp [FloatFormat.negNum, FloatFormat.intNum]
  have n700 : binary64.negNum (binary64.intNum (-700) (by norm_num)) = binary64.n700 :=
    Subtype.ext (by simp [FloatFormat.negNum, FloatFormat.intNum, FloatFormat.n700])
  have h720 : ((Fl.fin (binary64.negNum (binary64.intNum (-720) (by norm_num)))).exp roundedLib).guardPos =
      .fin binary64.maxC := by
    have hx : Fl.round binary64 (Real.exp 720) = .pinf := by
      have h1 : (2 : ℝ) ^ (1024 : ℤ) ≤ Real.exp 720 := by
        have h20 : (2 : ℝ) ^ (16 : ℤ) ≤ Real.exp 20 := by
          have h := Real.exp_one_gt_d9.le
          calc (2 : ℝ) ^ (16 : ℤ) ≤ 2.7182818283 ^ 20 := by norm_num
            _ ≤ Real.exp 1 ^ 20 := pow_le_pow_left₀ (by norm_num) h _
            _ = Real.exp 20 := by rw [← Real.exp_nat_mul]; norm_num
        calc (2 : ℝ) ^ (1024 : ℤ) = 2 ^ (1008 : ℤ) * 2 ^ (16 : ℤ) := by
              rw [← zpow_add₀ (by norm_num)]; norm_num
          _ ≤ Real.exp 700 * Real.exp 20 :=
              mul_le_mul Binary64.le_exp_700 h20 (zpow_pos (by norm_num) _).le (Real.exp_pos _).le
          _ = Real.exp 720 := by rw [← Real.exp_add]; norm_num
      have h2 : (2 : ℝ) ^ (1024 : ℤ) ≤ binary64.rnd (Real.exp 720) := by
        rw [← Binary64.rnd_of_mem (Binary64.F_pow (e := 1024) (by norm_num))]
        exact Binary64.rnd_mono h1
      have h3 : Binary64.big < (2 : ℝ) ^ (1024 : ℤ) := by
        rw [Binary64.big, show (1024 : ℤ) = 53 + 971 by norm_num, zpow_add₀ (by norm_num)]
        exact mul_lt_mul_of_pos_right (by norm_num) (zpow_pos (by norm_num) _)
      exact dif_pos (h3.trans_le h2)
    change (Fl.round binary64 (Real.exp (binary64.negNum (binary64.intNum (-720) (by norm_num))).1)).guardPos = _
    rw [n720, hx]
    exact maxComp_eq
  obtain ⟨e, he, he1⟩ := roundedLib_700
  obtain ⟨x, q, hx, hq, hq0, ha⟩ := float_scobit_zero_shape (binary64.rnd_maxComp_pos) h720
  obtain ⟨x', q', hx', hq', hq0', hb⟩ := float_scobit_zero_shape
    (v := binary64.intNum (-700) (by norm_num)) (e := e)
    (le_trans (by
      rw [← zpow_zero (2 : ℝ)]
      exact zpow_le_zpow_right₀ (by norm_num) (by norm_num)) he1)
    (by rw [n700, he]; rfl)
  refine ⟨_, _, ha, hb, ?_⟩
  have up : ∀ {r : ℝ} {k : ℤ}, -1074 ≤ k → r ≤ (2 : ℝ) ^ k → binary64.rnd r ≤ (2 : ℝ) ^ k := by
    intro r k hk h
    rw [← Binary64.rnd_of_mem (Binary64.F_pow hk)]
    exact Binary64.rnd_mono h
  have dn : ∀ {r : ℝ} {k : ℤ}, -1074 ≤ k → (2 : ℝ) ^ k ≤ r → (2 : ℝ) ^ k ≤ binary64.rnd r := by
    intro r k hk h
    rw [← Binary64.rnd_of_mem (Binary64.F_pow hk)]
    exact Binary64.rnd_mono h
  have one_le : ∀ k : ℤ, 0 ≤ k → (1 : ℝ) ≤ 2 ^ k := fun k hk => by
    rw [← zpow_zero (2 : ℝ)]; exact zpow_le_zpow_right₀ (by norm_num) hk
  have succ : ∀ k : ℤ, (2 : ℝ) ^ (k + 1) = 2 ^ k + 2 ^ k := fun k => by
    rw [zpow_add₀ (by norm_num)]; ring
  have hm : binary64.maxC.1 ≤ (2 : ℝ) ^ (1000 : ℤ) := up (by norm_num) Binary64.maxComp_le_pow
  have hx1 : x.1 ≤ (2 : ℝ) ^ (1000 + 1 : ℤ) := by
    rw [hx]
    refine up (by norm_num) ?_
    rw [succ]
    have := one_le 1000 (by norm_num)
    exact add_le_add this hm |>.trans (le_refl _)
  have hq1 : q.1 ≤ (2 : ℝ) ^ (1000 + 1 : ℤ) := by
    rw [hq]
    exact up (by norm_num) ((sub_le_self _ zero_le_one).trans hx1)
  have hx2 : (2 : ℝ) ^ (1007 + 1 : ℤ) ≤ x'.1 := by
    rw [hx']
    refine dn (by norm_num) ?_
    exact he1.trans (le_add_of_nonneg_left zero_le_one)
  have hq2 : (2 : ℝ) ^ (1007 : ℤ) ≤ q'.1 := by
    rw [hq']
    refine dn (by norm_num) ?_
    rw [succ] at hx2
    have := one_le 1007 (by norm_num)
    generalize (2 : ℝ) ^ (1007 : ℤ) = w at *
    linarith
  have l1 := log_zpow_le hq0 hq1 (by norm_num)
  have l2 := le_log_zpow hq2 (by norm_num)
  have n1 := nearNum_le (r := Real.log q.1) (k := 694) (by norm_num) (by push_cast at l1 ⊢; linarith)
  have n2 := le_nearNum (r := Real.log q'.1) (k := 697) (by norm_num) (by push_cast at l2 ⊢; linarith)
  change -(Binary64.nearNum _).1 < -(Binary64.nearNum _).1
  push_cast at n1 n2
  linarith

end Pylogit
