import Verif.Model.Float

/-!
# Arithmetic of floating point values
-/

namespace Pylogit

variable {A : FloatFormat}

namespace FloatFormat

theorem rnd_zero (A : FloatFormat) : A.rnd 0 = 0 := by
  have := A.int 0 (by norm_num); simpa using this

theorem rnd_one (A : FloatFormat) : A.rnd 1 = 1 := by
  have := A.int 1 (by norm_num); simpa using this

theorem rnd_700 (A : FloatFormat) : A.rnd 700 = 700 := by
  have := A.int 700 (by norm_num); simpa using this

theorem rnd_neg700 (A : FloatFormat) : A.rnd (-700) = -700 := by rw [A.neg, A.rnd_700]

theorem rnd_neg_one (A : FloatFormat) : A.rnd (-1) = -1 := by rw [A.neg, A.rnd_one]

theorem num_le_maxComp (A : FloatFormat) {k : ℤ} (hk : |k| ≤ 2 ^ 53) : (k : ℝ) ≤ A.big := by
  refine le_trans ?_ A.maxComp_le
  rw [← A.int k hk]
  refine A.mono ?_
  have h1 : (k : ℝ) ≤ 2 ^ 53 := by
    have : k ≤ 2 ^ 53 := le_trans (le_abs_self k) hk
    exact_mod_cast this
  refine h1.trans ?_
  rw [maxCompValue]
  calc (2 : ℝ) ^ 53 ≤ 10 ^ 53 := by gcongr; norm_num
    _ ≤ 10 ^ 300 := by gcongr <;> norm_num

/-- An integer of moderate size as a number of the format. -/
def intNum (A : FloatFormat) (k : ℤ) (hk : |k| ≤ 2 ^ 53) : A.Num :=
  ⟨k, A.int k hk, abs_le.2 ⟨by
    have := A.num_le_maxComp (k := -k) (by rwa [abs_neg])
    push_cast at this
    linarith, A.num_le_maxComp hk⟩⟩

theorem one_le_big (A : FloatFormat) : 1 ≤ A.big := by
  have := A.num_le_maxComp (k := 1) (by norm_num); simpa using this

theorem le_big_700 (A : FloatFormat) : 700 ≤ A.big := by
  have := A.num_le_maxComp (k := 700) (by norm_num); simpa using this

end FloatFormat

namespace Fl

theorem round_of_abs_le {r : ℝ} (h : |A.rnd r| ≤ A.big) :
    round A r = .fin ⟨A.rnd r, A.idem r, h⟩ := by
  rw [round, dif_neg (not_lt.2 (abs_le.1 h).2), dif_neg (not_lt.2 (abs_le.1 h).1)]

theorem round_cases (A : FloatFormat) (r : ℝ) :
    (round A r = .pinf ∧ A.big < A.rnd r) ∨ (round A r = .ninf ∧ A.rnd r < -A.big) ∨
      ∃ x : A.Num, round A r = .fin x ∧ x.1 = A.rnd r := by
  by_cases h1 : A.big < A.rnd r
  · exact Or.inl ⟨by rw [round, dif_pos h1], h1⟩
  · by_cases h2 : A.rnd r < -A.big
    · exact Or.inr (Or.inl ⟨by rw [round, dif_neg h1, dif_pos h2], h2⟩)
    · exact Or.inr (Or.inr ⟨⟨A.rnd r, A.idem r, abs_le.2 ⟨not_lt.1 h2, not_lt.1 h1⟩⟩,
        by rw [round, dif_neg h1, dif_neg h2], rfl⟩)

theorem round_ne_nan (A : FloatFormat) (r : ℝ) : round A r ≠ .nan := by
  rcases round_cases A r with h | h | ⟨x, h, -⟩ <;> simp [h]

theorem round_num (x : A.Num) : round A x.1 = .fin x := by
  rw [round_of_abs_le (by rw [x.2.1]; exact x.2.2)]
  congr 1
  exact Subtype.ext x.2.1

/-- Rounding a number between two numbers of the format stays between them. -/
theorem round_between {a b : A.Num} {r : ℝ} (h1 : a.1 ≤ r) (h2 : r ≤ b.1) :
    ∃ y : A.Num, round A r = .fin y ∧ y.1 = A.rnd r ∧ a.1 ≤ y.1 ∧ y.1 ≤ b.1 := by
  have e1 : a.1 ≤ A.rnd r := by rw [← a.2.1]; exact A.mono h1
  have e2 : A.rnd r ≤ b.1 := by rw [← b.2.1]; exact A.mono h2
  refine ⟨_, round_of_abs_le (abs_le.2 ⟨?_, ?_⟩), rfl, e1, e2⟩
  · exact (abs_le.1 a.2.2).1.trans e1
  · exact e2.trans (abs_le.1 b.2.2).2

/-- Rounding a number above one of the format stays above it or overflows. -/
theorem round_above {a : A.Num} {r : ℝ} (h1 : a.1 ≤ r) :
    round A r = .pinf ∨ ∃ y : A.Num, round A r = .fin y ∧ y.1 = A.rnd r ∧ a.1 ≤ y.1 := by
  have e1 : a.1 ≤ A.rnd r := by rw [← a.2.1]; exact A.mono h1
  rcases round_cases A r with ⟨h, -⟩ | ⟨-, h⟩ | ⟨x, h, hx⟩
  · exact Or.inl h
  · exact absurd ((abs_le.1 a.2.2).1.trans e1) (not_le.2 h)
  · exact Or.inr ⟨x, h, hx, hx ▸ e1⟩

theorem round_below {b : A.Num} {r : ℝ} (h1 : r ≤ b.1) :
    round A r = .ninf ∨ ∃ y : A.Num, round A r = .fin y ∧ y.1 = A.rnd r ∧ y.1 ≤ b.1 := by
  have e1 : A.rnd r ≤ b.1 := by rw [← b.2.1]; exact A.mono h1
  rcases round_cases A r with ⟨-, h⟩ | ⟨h, -⟩ | ⟨x, h, hx⟩
  · exact absurd (e1.trans (abs_le.1 b.2.2).2) (not_le.2 h)
  · exact Or.inl h
  · exact Or.inr ⟨x, h, hx, hx ▸ e1⟩

end Fl

namespace FloatFormat

/-- Zero, one, minus one and the clipping bounds as numbers of the format. -/
def zero (A : FloatFormat) : A.Num :=
  ⟨0, A.rnd_zero, by simpa using zero_le_one.trans A.one_le_big⟩

def one (A : FloatFormat) : A.Num := ⟨1, A.rnd_one, by simpa using A.one_le_big⟩

def negOne (A : FloatFormat) : A.Num := ⟨-1, A.rnd_neg_one, by simpa using A.one_le_big⟩

def n700 (A : FloatFormat) : A.Num := ⟨700, A.rnd_700, by simpa using A.le_big_700⟩

def neg700 (A : FloatFormat) : A.Num := ⟨-700, A.rnd_neg700, by simpa using A.le_big_700⟩

/-- The negative of a number. -/
def negNum (A : FloatFormat) (x : A.Num) : A.Num :=
  ⟨-x.1, by rw [A.neg, x.2.1], by rw [abs_neg]; exact x.2.2⟩

theorem rnd_maxComp_pos (A : FloatFormat) : 1 ≤ A.rnd maxCompValue := by
  rw [← A.rnd_one]
  refine A.mono ?_
  rw [maxCompValue]
  exact one_le_pow₀ (by norm_num)

/-- `max_comp_value` as a number of the format. -/
noncomputable def maxC (A : FloatFormat) : A.Num :=
  ⟨A.rnd maxCompValue, A.idem _, by
    rw [abs_of_nonneg (zero_le_one.trans A.rnd_maxComp_pos)]; exact A.maxComp_le⟩

theorem rnd_minComp_le (A : FloatFormat) : A.rnd minCompValue ≤ 1 := by
  rw [← A.rnd_one]
  refine A.mono ?_
  rw [minCompValue]
  exact inv_le_one_of_one_le₀ (one_le_pow₀ (by norm_num))

/-- `min_comp_value` as a number of the format. -/
noncomputable def minC (A : FloatFormat) : A.Num :=
  ⟨A.rnd minCompValue, A.idem _, by
    rw [abs_of_nonneg A.minComp_pos.le]; exact A.rnd_minComp_le.trans A.one_le_big⟩

end FloatFormat

namespace Fl

@[simp] theorem round_zero : round A 0 = .fin A.zero := round_num A.zero
@[simp] theorem round_one : round A 1 = .fin A.one := round_num A.one
@[simp] theorem round_neg_one : round A (-1) = .fin A.negOne := round_num A.negOne
@[simp] theorem round_700 : round A 700 = .fin A.n700 := round_num A.n700
@[simp] theorem round_neg700 : round A (-700) = .fin A.neg700 := round_num A.neg700

theorem maxComp_eq : maxComp A = .fin A.maxC := round_of_abs_le A.maxC.2.2

theorem minComp_eq : minComp A = .fin A.minC := round_of_abs_le A.minC.2.2

theorem neg_fin (x : A.Num) : (Fl.fin x).neg = .fin (A.negNum x) := round_num (A.negNum x)

theorem one_mul (x : Fl A) : (Fl.round A 1).mul x = x := by
  rw [round_one]
  have h1 : A.one.1 = 1 := rfl
  cases x with
  | fin x => simp only [mul, h1, _root_.one_mul, round_num]
  | pinf => simp [mul, scaleInf, h1]
  | ninf => norm_num [mul, scaleInf, h1]
  | nan => rfl

theorem zero_add (x : Fl A) : (Fl.round A 0).add x = x := by
  rw [round_zero]
  have h1 : A.zero.1 = 0 := rfl
  cases x with
  | fin x => simp only [add, h1, _root_.zero_add, round_num]
  | pinf => rfl
  | ninf => rfl
  | nan => rfl

@[simp] theorem pick_eq (x : Fl A) : x.pick = x := by
  simp only [pick, sum, List.foldl_cons, List.foldl_nil, one_mul, zero_add]

/-- `-1 * x` is the negative of `x`. -/
theorem negOne_mul_fin (x : A.Num) : (Fl.round A (-1)).mul (.fin x) = .fin (A.negNum x) := by
  rw [round_neg_one]
  simp only [mul]
  rw [show A.negOne.1 * x.1 = (A.negNum x).1 from neg_one_mul _, round_num]

/-- Clipping a value that is not NaN gives a number between -700 and 700. -/
theorem clip_spec {x : Fl A} (hx : x ≠ .nan) : ∃ y : A.Num, x.clip = .fin y ∧ |y.1| ≤ 700 := by
  have h7 : A.n700.1 = 700 := rfl
  have hm : A.neg700.1 = -700 := rfl
  unfold clip
  simp only [round_700, round_neg700]
  cases x with
  | nan => exact absurd rfl hx
  | pinf => exact ⟨A.n700, by simp [lt], by rw [h7]; norm_num⟩
  | ninf => exact ⟨A.neg700, by simp [lt], by rw [hm]; norm_num⟩
  | fin x =>
    by_cases h1 : 700 < x.1
    · exact ⟨A.n700, by simp [lt, h7, h1], by rw [h7]; norm_num⟩
    · by_cases h2 : x.1 < -700
      · exact ⟨A.neg700, by simp [lt, h7, hm, h1, h2], by rw [hm]; norm_num⟩
      · exact ⟨x, by simp [lt, h7, hm, h1, h2], abs_le.2 ⟨not_lt.1 h2, not_lt.1 h1⟩⟩

theorem clip_nan : (Fl.nan : Fl A).clip = .nan := by simp [clip, lt]

/-- Values that are at least a given number: finite and at least it, or infinite. -/
def AtLeast (a : ℝ) (x : Fl A) : Prop := x = .pinf ∨ ∃ y : A.Num, x = .fin y ∧ a ≤ y.1

theorem AtLeast.ne_nan {a : ℝ} {x : Fl A} (h : AtLeast a x) : x ≠ .nan := by
  rcases h with rfl | ⟨y, rfl, -⟩ <;> simp

theorem AtLeast.mono {a b : ℝ} {x : Fl A} (h : AtLeast a x) (hb : b ≤ a) : AtLeast b x := by
  rcases h with rfl | ⟨y, rfl, hy⟩
  · exact Or.inl rfl
  · exact Or.inr ⟨y, rfl, hb.trans hy⟩

/-- Adding a non-negative value to one that is at least a number of the format. -/
theorem AtLeast.add {a : A.Num} {x y : Fl A} (hx : AtLeast a.1 x) (hy : AtLeast 0 y) :
    AtLeast a.1 (x.add y) := by
  rcases hx with rfl | ⟨x, rfl, hx⟩ <;> rcases hy with rfl | ⟨y, rfl, hy⟩
  · exact Or.inl rfl
  · exact Or.inl rfl
  · exact Or.inl rfl
  · rcases round_above (a := a) (r := x.1 + y.1) (by linarith) with h | ⟨z, h, -, hz⟩
    · exact Or.inl h
    · exact Or.inr ⟨z, h, hz⟩

theorem AtLeast.add' {a : A.Num} {x y : Fl A} (hx : AtLeast 0 x) (hy : AtLeast a.1 y) :
    AtLeast a.1 (x.add y) := by
  rcases hx with rfl | ⟨x, rfl, hx⟩ <;> rcases hy with rfl | ⟨y, rfl, hy⟩
  · exact Or.inl rfl
  · exact Or.inl rfl
  · exact Or.inl rfl
  · rcases round_above (a := a) (r := x.1 + y.1) (by linarith) with h | ⟨z, h, -, hz⟩
    · exact Or.inl h
    · exact Or.inr ⟨z, h, hz⟩

theorem foldl_atLeast {a : A.Num} {l : List (Fl A)} (h : ∀ x ∈ l, AtLeast 0 x) {acc : Fl A}
    (hacc : AtLeast a.1 acc) : AtLeast a.1 (l.foldl Fl.add acc) := by
  induction l generalizing acc with
  | nil => exact hacc
  | cons x l ih =>
    exact ih (fun y hy => h y (List.mem_cons_of_mem _ hy)) (hacc.add (h x List.mem_cons_self))

/-- A sum of non-negative values is at least each of them, and never NaN. -/
theorem sum_atLeast {l : List (Fl A)} (h : ∀ x ∈ l, AtLeast 0 x) {a : A.Num}
    (ha : ∃ x ∈ l, AtLeast a.1 x) : AtLeast a.1 (sum l) := by
  have key : ∀ (l : List (Fl A)), (∀ x ∈ l, AtLeast 0 x) → (∃ x ∈ l, AtLeast a.1 x) →
      ∀ acc : Fl A, AtLeast 0 acc → AtLeast a.1 (l.foldl Fl.add acc) := by
    intro l
    induction l with
    | nil => rintro - ⟨x, hx, -⟩; cases hx
    | cons y l ih =>
      rintro h ⟨x, hx, hxa⟩ acc hacc
      rw [List.foldl_cons]
      rcases List.mem_cons.1 hx with rfl | hx
      · exact foldl_atLeast (fun z hz => h z (List.mem_cons_of_mem _ hz)) (hacc.add' hxa)
      · exact ih (fun z hz => h z (List.mem_cons_of_mem _ hz)) ⟨x, hx, hxa⟩ _
          (AtLeast.add (a := A.zero) hacc (h y List.mem_cons_self))
  refine key l h ha _ ?_
  rw [round_zero]
  exact Or.inr ⟨A.zero, rfl, le_refl _⟩

theorem sum_nonneg {l : List (Fl A)} (h : ∀ x ∈ l, AtLeast 0 x) : AtLeast 0 (sum l) := by
  refine foldl_atLeast (a := A.zero) h ?_
  rw [round_zero]
  exact Or.inr ⟨A.zero, rfl, le_refl _⟩

/-- A positive number divided by something at least as large lies between zero and one. -/
theorem div_spec {x : A.Num} (hx : 0 < x.1) {s : Fl A} (hs : AtLeast x.1 s) :
    ∃ y : A.Num, (Fl.fin x).div s = .fin y ∧ 0 ≤ y.1 ∧ y.1 ≤ 1 := by
  rcases hs with rfl | ⟨s, rfl, hs⟩
  · exact ⟨A.zero, by simp [div], le_refl _, zero_le_one⟩
  · have hs0 : 0 < s.1 := hx.trans_le hs
    obtain ⟨y, hy, -, h1, h2⟩ := round_between (a := A.zero) (b := A.one) (r := x.1 / s.1)
      (div_nonneg hx.le hs0.le) ((div_le_one hs0).2 hs)
    exact ⟨y, by simp only [div, if_neg hs0.ne', hy], h1, h2⟩

theorem exp_atLeast (L : MathLib A) {x : Fl A} (hx : x ≠ .nan) : AtLeast 0 (x.exp L) := by
  cases x with
  | nan => exact absurd rfl hx
  | pinf => exact Or.inl rfl
  | ninf => exact Or.inr ⟨A.zero, by simp [exp], le_refl _⟩
  | fin x => exact L.exp_nonneg x

theorem exp_clip (L : MathLib A) {x : Fl A} (hx : x ≠ .nan) :
    ∃ y : A.Num, x.clip.exp L = .fin y ∧ 0 < y.1 := by
  obtain ⟨y, hy, h7⟩ := clip_spec hx
  obtain ⟨z, hz, h0⟩ := L.exp_mid y h7
  exact ⟨z, by rw [hy]; exact hz, h0⟩

end Fl

end Pylogit
