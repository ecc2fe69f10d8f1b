import Verif.Model.FloatMixed
import Verif.Props.FloatNested
import Verif.Props.FloatOrder
import Verif.Props.FloatSum

/-!
# C119: the mixed logit in floating point arithmetic
-/

namespace Pylogit

open Spec Fl

variable {A : FloatFormat} {n m d : ℕ} {O : Type} [DecidableEq O]

/-- A number between two integers of moderate size. -/
def InRange (x : Fl A) (B C : ℕ) : Prop := IsNum x fun y => -(B : ℝ) ≤ y ∧ y ≤ C

theorem negNat (A : FloatFormat) {k : ℕ} (hk : k ≤ 2 ^ 53) : ∃ x : A.Num, x.1 = -(k : ℝ) := by
  have h1 : |(-k : ℤ)| ≤ 2 ^ 53 := by rw [abs_neg, Nat.abs_cast]; exact_mod_cast hk
  exact ⟨A.intNum _ h1, by simp [FloatFormat.intNum]⟩

theorem posNat (A : FloatFormat) {k : ℕ} (hk : k ≤ 2 ^ 53) : ∃ x : A.Num, x.1 = (k : ℝ) := by
  have h1 : |(k : ℤ)| ≤ 2 ^ 53 := by rw [Nat.abs_cast]; exact_mod_cast hk
  exact ⟨A.intNum _ h1, by simp [FloatFormat.intNum]⟩

/-- Rounding a number between two integers of moderate size stays between them. -/
theorem round_inRange {r : ℝ} {B C : ℕ} (hB : B ≤ 2 ^ 53) (hC : C ≤ 2 ^ 53) (h1 : -(B : ℝ) ≤ r)
    (h2 : r ≤ C) : InRange (Fl.round A r) B C := by
  obtain ⟨b, hb⟩ := negNat A hB
  obtain ⟨c, hc⟩ := posNat A hC
  obtain ⟨y, hy, -, h3, h4⟩ := round_between (a := b) (b := c) (hb ▸ h1) (hc ▸ h2)
  exact ⟨y, hy, hb ▸ h3, hc ▸ h4⟩

theorem foldl_inRange (l : List (Fl A)) (B C : ℕ) (h : ∀ x ∈ l, InRange x B C) (k : ℕ)
    (hB : (k + l.length) * B ≤ 2 ^ 53) (hC : (k + l.length) * C ≤ 2 ^ 53) (acc : Fl A)
    (hacc : InRange acc (k * B) (k * C)) :
    InRange (l.foldl Fl.add acc) ((k + l.length) * B) ((k + l.length) * C) := by
  induction l generalizing k acc with
  | nil => simpa using hacc
  | cons x l ih =>
    rw [List.length_cons, show k + (l.length + 1) = k + 1 + l.length by ring] at *
    refine ih (fun y hy => h y (List.mem_cons_of_mem _ hy)) (k + 1) hB hC _ ?_
    obtain ⟨a, rfl, ha1, ha2⟩ := hacc
    obtain ⟨y, rfl, hy1, hy2⟩ := h x List.mem_cons_self
    push_cast at ha1 ha2
    refine round_inRange ((Nat.mul_le_mul_right _ (by omega)).trans hB)
      ((Nat.mul_le_mul_right _ (by omega)).trans hC) ?_ ?_ <;> push_cast <;> linarith

/-- A sum of numbers between two integers. -/
theorem sum_inRange (l : List (Fl A)) (B C : ℕ) (h : ∀ x ∈ l, InRange x B C)
    (hB : l.length * B ≤ 2 ^ 53) (hC : l.length * C ≤ 2 ^ 53) :
    InRange (Fl.sum l) (l.length * B) (l.length * C) := by
  have := foldl_inRange l B C h 0 (by simpa using hB) (by simpa using hC) (.round A 0)
    ⟨A.zero, Fl.round_zero, by simp [FloatFormat.zero]⟩
  rw [_root_.zero_add] at this
  exact this

/-- A format whose positive numbers are at least `g`, with the small multiples of `g` among its numbers. -/
structure FloatFormat.Grid (A : FloatFormat) (g : ℝ) : Prop where
  pos : 0 < g
  least : ∀ x : A.Num, 0 < x.1 → g ≤ x.1
  mul : ∀ k : ℕ, k ≤ 2 ^ 53 → A.rnd (k * g) = k * g

/-- Binary64 is one, with the least subnormal number. -/
theorem binary64_grid : binary64.Grid ((2 : ℝ) ^ (-1074 : ℤ)) where
  pos := zpow_pos (by norm_num) _
  least x hx := by
    obtain ⟨k, hk⟩ := Binary64.F_grid (Binary64.mem_F x)
    have hp : (0 : ℝ) < 2 ^ (-1074 : ℤ) := zpow_pos (by norm_num) _
    rw [hk] at hx ⊢
    have h1 : (0 : ℝ) < k := pos_of_mul_pos_left hx hp.le
    have h2 : (1 : ℤ) ≤ k := by exact_mod_cast h1
    have h3 : (1 : ℝ) ≤ k := by exact_mod_cast h2
    exact le_mul_of_one_le_left hp.le h3
  mul k hk := by
    have := Binary64.rnd_of_mem (Binary64.F_mul (k := (k : ℤ)) (g := -1074)
      (by rw [Nat.abs_cast]; exact_mod_cast hk) le_rfl)
    exact_mod_cast this

theorem foldl_grid {g : ℝ} (hA : A.Grid g) (l : List (Fl A)) (h : ∀ x ∈ l, IsProb x) (k : ℕ)
    (hk : k + l.length ≤ 2 ^ 53) (acc : Fl A) (hacc : AtLeast (k * g) acc) :
    AtLeast (((k + l.length : ℕ) : ℝ) * g) (l.foldl Fl.add acc) := by
  induction l generalizing k acc with
  | nil => simpa using hacc
  | cons x l ih =>
    rw [List.length_cons] at hk
    rw [List.foldl_cons, List.length_cons, show k + (l.length + 1) = k + 1 + l.length by ring]
    refine ih (fun y hy => h y (List.mem_cons_of_mem _ hy)) (k + 1) (by omega) _ ?_
    obtain ⟨y, rfl, hy0, -⟩ := h x List.mem_cons_self
    have hg := hA.least y hy0
    rcases hacc with rfl | ⟨a, rfl, ha⟩
    · exact Or.inl rfl
    · have hm := hA.mul (k + 1) (by omega)
      have h1 : ((k + 1 : ℕ) : ℝ) * g ≤ A.rnd (a.1 + y.1) := by
        rw [← hm]
        refine A.mono ?_
        push_cast
        linarith
      have h0 : 0 ≤ ((k + 1 : ℕ) : ℝ) * g := mul_nonneg (by positivity) hA.pos.le
      rcases round_cases A (a.1 + y.1) with ⟨h, -⟩ | ⟨-, h⟩ | ⟨z, h, hz⟩
      · exact Or.inl h
      · have := A.one_le_big
        linarith
      · exact Or.inr ⟨z, h, hz ▸ h1⟩

/-- The average of at least one probability is a probability. -/
theorem floatMean_prob {g : ℝ} (hA : A.Grid g) (x : Fin d → Fl A) (hd : 0 < d) (hd' : d ≤ 2 ^ 53)
    (h : ∀ j, IsProb (x j)) : IsProb (floatMean x) := by
  have hl : ∀ y ∈ List.ofFn x, IsProb y := by
    intro y hy
    obtain ⟨j, rfl⟩ := List.mem_ofFn.1 hy
    exact h j
  obtain ⟨S, hS, hS0, hS1⟩ := sum_inRange (List.ofFn x) 0 1 (fun y hy => by
    obtain ⟨z, hz, h0, h1⟩ := hl y hy
    exact ⟨z, hz, by simpa using h0.le, by simpa using h1⟩) (by simp) (by simpa using hd')
  have hg := foldl_grid hA (List.ofFn x) hl 0 (by simpa using hd') (.round A 0)
    (Or.inr ⟨A.zero, Fl.round_zero, by simp [FloatFormat.zero]⟩)
  have hS' : Fl.sum (List.ofFn x) = .fin S := hS
  change AtLeast _ (Fl.sum (List.ofFn x)) at hg
  rw [hS'] at hg
  have hSg : (d : ℝ) * g ≤ S.1 := by
    rcases hg with h | ⟨y, h, hy⟩
    · cases h
    · rw [Fl.fin.inj h]; simpa using hy
  obtain ⟨D, hD⟩ := posNat A hd'
  have hd0 : (0 : ℝ) < d := by exact_mod_cast hd
  have hgN : A.rnd g = g := by simpa using hA.mul 1 (by norm_num)
  obtain ⟨y, hy, hyr, -, hy1⟩ := round_between (a := A.zero) (b := A.one) (r := S.1 / D.1)
    (by
      rw [hD]
      exact div_nonneg ((mul_nonneg hd0.le hA.pos.le).trans hSg) hd0.le)
    (by
      rw [hD]
      have : S.1 ≤ d := by simpa using hS1
      exact (div_le_one hd0).2 this)
  refine ⟨y, ?_, ?_, hy1⟩
  · unfold floatMean
    rw [hS', ← hD, Fl.round_num]
    simp only [Fl.div]
    rw [if_neg (by rw [hD]; exact hd0.ne'), hy]
  · rw [hyr]
    refine hA.pos.trans_le ?_
    rw [← hgN]
    refine A.mono ?_
    rw [hD, le_div_iff₀ hd0]
    linarith

theorem log_term (L : MathLib A) {c p : Fl A} (hc : IsNum c fun y => y = 0 ∨ y = 1) (hp : IsProb p) :
    InRange ((Fl.round A 1).mul (c.mul (p.log L))) 1000 0 := by
  obtain ⟨c, rfl, hc⟩ := hc
  obtain ⟨p, rfl, hp0, hp1⟩ := hp
  have hl : (Fl.fin p).log L = .fin (L.log p) := by
    simp only [Fl.log, if_neg hp0.ne', if_neg (not_lt.2 hp0.le)]
  have h1 := L.log_nonpos p hp0 hp1
  have h2 := L.log_ge p hp0
  rw [Fl.one_mul, hl]
  refine round_inRange (by norm_num) (by norm_num) ?_ ?_ <;> rcases hc with h | h <;> rw [h] <;>
    norm_num <;> linarith

theorem length_rowsOfObs_le {O : Type} [DecidableEq O] (obs : Fin n → O) (o : O) :
    (rowsOfObs obs o).length ≤ n := by
  unfold rowsOfObs
  exact (List.length_filter_le _ _).trans (by simp)

/-- The computed logarithm of the probability of a sequence of choices is a number, and not positive. -/
theorem floatLogSequence_range (L : MathLib A) (mixer : Fin n → Fin m) {choice : Fin n → Fl A}
    (hc : ∀ r, IsNum (choice r) fun y => y = 0 ∨ y = 1) (p : Fin n → Fin d → Fl A)
    (hp : ∀ r j, IsProb (p r j)) (hn : n * 1000 ≤ 2 ^ 53) (k : Fin m) (j : Fin d) :
    IsNum (floatLogSequence L mixer choice p k j) fun y => y ≤ 0 := by
  obtain ⟨y, hy, -, h2⟩ := sum_inRange
    ((rowsOfObs mixer k).map fun r => (Fl.round A 1).mul ((choice r).mul ((p r j).log L))) 1000 0
    (fun x hx => by
      obtain ⟨r, -, rfl⟩ := List.mem_map.1 hx
      exact log_term L (hc r) (hp r j))
    (by
      rw [List.length_map]
      exact (Nat.mul_le_mul_right _ (length_rowsOfObs_le mixer k)).trans hn) (by simp)
  exact ⟨y, hy, by simpa using h2⟩

theorem exp_guard (L : MathLib A) {x : Fl A} (hx : IsNum x fun y => y ≤ 0) :
    IsProb (x.exp L).guardZero := by
  obtain ⟨x, rfl, hx⟩ := hx
  obtain ⟨y, hy, h0, h1⟩ := L.exp_le_one x hx
  simp only [Fl.exp, hy, guardZero]
  split_ifs with h
  · exact ⟨A.minC, minComp_eq, A.minComp_pos, A.rnd_minComp_le⟩
  · exact ⟨y, rfl, lt_of_le_of_ne h0 (Ne.symm h), h1⟩

/-- **C119**.  In floating point arithmetic, however small the probabilities of the single choices, however many of
them a person makes and however many draws are taken (up to nine million million): the probability of the
person's sequence of choices at each draw, and the simulated probability, are numbers, positive and at most
one. -/
theorem float_sequence_valid {g : ℝ} (hA : A.Grid g) (L : MathLib A) (mixer : Fin n → Fin m)
    {choice : Fin n → Fl A} (hc : ∀ r, IsNum (choice r) fun y => y = 0 ∨ y = 1)
    (p : Fin n → Fin d → Fl A) (hp : ∀ r j, IsProb (p r j)) (hn : n * 1000 ≤ 2 ^ 53) (hd : 0 < d)
    (hd' : d ≤ 2 ^ 53) (k : Fin m) :
    (∀ j, IsProb (floatSequence L mixer choice p k j)) ∧
      IsProb (floatSequenceProb L mixer choice p k) := by
  have h : ∀ j, IsProb (floatSequence L mixer choice p k j) := fun j =>
    exp_guard L (floatLogSequence_range L mixer hc p hp hn k j)
  exact ⟨h, floatMean_prob hA _ hd hd' h⟩

/-! ## Log-likelihood -/

theorem foldl_max (l : List (Fl A)) (W : ℕ) (h : ∀ x ∈ l, InRange x 0 W) (acc : Fl A)
    (hacc : InRange acc 0 W) : InRange (l.foldl Fl.max acc) 0 W := by
  induction l generalizing acc with
  | nil => exact hacc
  | cons x l ih =>
    refine ih (fun y hy => h y (List.mem_cons_of_mem _ hy)) _ ?_
    unfold Fl.max
    split_ifs
    · exact h x List.mem_cons_self
    · exact hacc

theorem mixerWeight_range (mixer : Fin n → Fin m) {weights : Fin n → Fl A} {W : ℕ} (hW : W ≤ 2 ^ 53)
    (hw : ∀ r, InRange (weights r) 0 W) (k : Fin m) : InRange (floatMixerWeight mixer weights k) 0 W := by
  have h : ∀ x ∈ (List.finRange n).map fun r =>
      (Fl.round A (if mixer r = k then 1 else 0)).mul (weights r), InRange x 0 W := by
    intro x hx
    obtain ⟨r, -, rfl⟩ := List.mem_map.1 hx
    obtain ⟨w, e, hw0, hw1⟩ := hw r
    rw [e]
    split_ifs
    · rw [Fl.one_mul]
      exact ⟨w, rfl, hw0, hw1⟩
    · rw [Fl.round_zero]
      refine round_inRange (by simp) hW ?_ ?_ <;> simp [FloatFormat.zero]
  unfold floatMixerWeight
  dsimp only
  generalize (List.finRange n).map (fun r =>
      (Fl.round A (if mixer r = k then 1 else 0)).mul (weights r)) = l at h
  cases l with
  | nil => exact ⟨A.zero, Fl.round_zero, by simp [FloatFormat.zero]⟩
  | cons x l => exact foldl_max l W (fun y hy => h y (List.mem_cons_of_mem _ hy)) x
                  (h x List.mem_cons_self)

theorem foldl_max_eq {w : A.Num} (l : List (Fl A)) (h : ∀ x ∈ l, ∃ v : A.Num, x = .fin v ∧ v.1 ≤ w.1) (a : A.Num)
    (ha : a.1 ≤ w.1) (hw : a = w ∨ .fin w ∈ l) : l.foldl Fl.max (.fin a) = .fin w := by
  induction l generalizing a with
  | nil => rw [hw.resolve_right (by simp)]; rfl
  | cons x l ih =>
    obtain ⟨v, rfl, hv⟩ := h x List.mem_cons_self
    have hl : ∀ x ∈ l, ∃ v : A.Num, x = .fin v ∧ v.1 ≤ w.1 := fun y hy => h y (List.mem_cons_of_mem _ hy)
    rw [List.foldl_cons]
    by_cases hav : a.1 < v.1
    · rw [show Fl.max (.fin a) (.fin v) = .fin v by simp [Fl.max, Fl.lt, hav]]
      refine ih hl v hv ?_
      rcases hw with rfl | hw
      · exact absurd hv (not_le.2 hav)
      · rcases List.mem_cons.1 hw with e | e
        · exact .inl (by injection e with e; exact e.symm)
        · exact .inr e
    · rw [show Fl.max (.fin a) (.fin v) = .fin a by simp [Fl.max, Fl.lt, hav]]
      refine ih hl a ha ?_
      rcases hw with rfl | hw
      · exact .inl rfl
      · rcases List.mem_cons.1 hw with e | e
        · injection e with e
          subst e
          exact .inl (Subtype.ext (le_antisymm ha (not_lt.1 hav)))
        · exact .inr e

/-- **C119**.  The weight of a unit whose rows all have the weight `w` is exactly `w`. -/
theorem float_mixer_weight (mixer : Fin n → Fin m) {weights : Fin n → Fl A} (hw : ∀ r, IsNum (weights r) fun y => 0 ≤ y)
    {k : Fin m} (hk : ∃ r, mixer r = k) {w : A.Num} (h : ∀ r, mixer r = k → weights r = .fin w) :
    floatMixerWeight mixer weights k = .fin w := by
  have hw0 : 0 ≤ w.1 := by
    obtain ⟨r, hr⟩ := hk
    obtain ⟨v, e, hv⟩ := hw r
    rw [h r hr] at e
    injection e with e
    rwa [e]
  have hx : ∀ x ∈ (List.finRange n).map fun r =>
      (Fl.round A (if mixer r = k then 1 else 0)).mul (weights r), ∃ v : A.Num, x = .fin v ∧ v.1 ≤ w.1 := by
    intro x hx
    obtain ⟨r, -, rfl⟩ := List.mem_map.1 hx
    by_cases hr : mixer r = k
    · rw [if_pos hr, h r hr, Fl.one_mul]
      exact ⟨w, rfl, le_rfl⟩
    · obtain ⟨v, e, -⟩ := hw r
      refine ⟨A.zero, ?_, hw0⟩
      rw [if_neg hr, e, Fl.round_zero]
      simp [Fl.mul, FloatFormat.zero]
  have hm : Fl.fin w ∈ (List.finRange n).map fun r => (Fl.round A (if mixer r = k then 1 else 0)).mul (weights r) := by
    obtain ⟨r, hr⟩ := hk
    exact List.mem_map.2 ⟨r, List.mem_finRange r, by rw [if_pos hr, h r hr, Fl.one_mul]⟩
  unfold floatMixerWeight
  dsimp only
  generalize (List.finRange n).map (fun r =>
      (Fl.round A (if mixer r = k then 1 else 0)).mul (weights r)) = l at hx hm
  cases l with
  | nil => simp at hm
  | cons x l =>
    obtain ⟨v, rfl, hv⟩ := hx x List.mem_cons_self
    refine foldl_max_eq l (fun y hy => hx y (List.mem_cons_of_mem _ hy)) v hv ?_
    rcases List.mem_cons.1 hm with e | e
    · exact .inl (by injection e with e; exact e.symm)
    · exact .inr e

/-- **C119**.  The log-likelihood of a mixed logit model is a finite number and never positive, whatever the
utilities (none being NaN), with choices 0 or 1, weights between 0 and `W`, up to `2^53 / (1000 W)` units and
`2^53 / 1000` rows, and any number of draws from 1 to `2^53`. -/
theorem float_mixed_log_likelihood {g : ℝ} (hA : A.Grid g) (L : MathLib A) (obs : Fin n → O)
    (mixer : Fin n → Fin m) (t : Fin n → Fin d → Fl A) (choice weights : Fin n → Fl A) (W : ℕ)
    (hm : m * (1000 * W) ≤ 2 ^ 53) (hW : W ≤ 2 ^ 53) (hn : n * 1000 ≤ 2 ^ 53) (hd : 0 < d)
    (hd' : d ≤ 2 ^ 53) (ht : ∀ r j, t r j ≠ .nan) (hc : ∀ r, IsNum (choice r) fun y => y = 0 ∨ y = 1)
    (hw : ∀ r, IsNum (weights r) fun y => 0 ≤ y ∧ y ≤ W) :
    IsNum (floatMixedLogLik L obs mixer t choice weights) fun y =>
      -(m * (1000 * W) : ℝ) ≤ y ∧ y ≤ 0 := by
  have hp : ∀ r j, IsProb (floatProbArray L obs t r j) := fun r j =>
    float_probs_valid L obs _ r fun s _ => ht s j
  have hw' : ∀ r, InRange (weights r) 0 W := fun r => by
    obtain ⟨w, e, h0, h1⟩ := hw r
    exact ⟨w, e, by simpa using h0, h1⟩
  have hterm : ∀ k : Fin m, InRange ((floatMixerWeight mixer weights k).mul
      ((floatSequenceProb L mixer choice (floatProbArray L obs t) k).log L)) (1000 * W) 0 := by
    intro k
    have hm1 : 1 ≤ m := by have := k.2; omega
    have hW' : 1000 * W ≤ 2 ^ 53 := le_trans (Nat.le_mul_of_pos_left _ hm1) hm
    obtain ⟨w, e, h0, h1⟩ := mixerWeight_range mixer hW hw' k
    obtain ⟨q, eq, hq0, hq1⟩ := (float_sequence_valid hA L mixer hc _ hp hn hd hd' k).2
    have hl : (Fl.fin q).log L = .fin (L.log q) := by
      simp only [Fl.log, if_neg hq0.ne', if_neg (not_lt.2 hq0.le)]
    have h2 := L.log_nonpos q hq0 hq1
    have h3 := L.log_ge q hq0
    have h0' : 0 ≤ w.1 := by simpa using h0
    rw [e, eq, hl]
    refine round_inRange hW' (by simp) ?_ ?_
    · push_cast
      nlinarith
    · push_cast
      exact mul_nonpos_of_nonneg_of_nonpos h0' h2
  obtain ⟨y, hy, h1, h2⟩ := sum_inRange ((List.finRange m).map fun k =>
      (floatMixerWeight mixer weights k).mul
        ((floatSequenceProb L mixer choice (floatProbArray L obs t) k).log L)) (1000 * W) 0
    (fun x hx => by
      obtain ⟨k, -, rfl⟩ := List.mem_map.1 hx
      exact hterm k) (by simpa using hm) (by simp)
  refine ⟨y, hy, ?_, by simpa using h2⟩
  rw [List.length_map, List.length_finRange] at h1
  push_cast at h1
  exact h1

/-! ## Gradient -/

theorem seq_ratio {u η g : ℝ} (hA : A.Grid g) (hacc : A.Accurate u η) (hu : u ≤ 1 / 4) (hη : η ≤ g / 2)
    (x : Fin d → Fl A) (hd : 0 < d) (hd' : 2 * d ≤ 2 ^ 53) (h : ∀ j, IsProb (x j)) (j : Fin d) :
    InRange ((x j).div (floatMean x)) 0 (2 * d) := by
  obtain ⟨y, hy, hy0, -⟩ := floatMean_prob hA x hd (by omega) h
  obtain ⟨q, hq, hq0, hq1⟩ := h j
  obtain ⟨D, hD⟩ := posNat A (k := d) (by omega)
  have hd0 : (0 : ℝ) < d := by exact_mod_cast hd
  have hgy := hA.least y hy0
  -- the average is at least the rounded quotient of the entry
  have hS : AtLeast q.1 (Fl.sum (List.ofFn x)) := by
    refine sum_atLeast ?_ ⟨x j, List.mem_ofFn.2 ⟨j, rfl⟩, Or.inr ⟨q, hq, le_rfl⟩⟩
    intro z hz
    obtain ⟨i, rfl⟩ := List.mem_ofFn.1 hz
    obtain ⟨w, hw, hw0, -⟩ := h i
    exact Or.inr ⟨w, hw, hw0.le⟩
  have hy' : A.rnd (q.1 / d) ≤ y.1 := by
    unfold floatMean at hy
    rcases hS with hS | ⟨S, hS, hSq⟩
    · rw [hS, ← hD, Fl.round_num] at hy
      simp only [Fl.div] at hy
      split_ifs at hy
    · rw [hS, ← hD, Fl.round_num] at hy
      simp only [Fl.div] at hy
      rw [if_neg (by rw [hD]; exact hd0.ne')] at hy
      rw [round_fin hy, hD]
      exact A.mono (div_le_div_of_nonneg_right hSq hd0.le)
  have herr := (abs_le.1 (hacc.rnd_error (q.1 / d) (div_nonneg hq0.le hd0.le))).1
  have hle : q.1 / d ≤ 2 * y.1 := by
    have h0 : 0 ≤ q.1 / d := div_nonneg hq0.le hd0.le
    nlinarith
  rw [hq, hy]
  simp only [Fl.div, if_neg hy0.ne']
  refine round_inRange (by simp) hd' ?_ ?_
  · simpa using div_nonneg hq0.le hy0.le
  · rw [div_le_iff₀ hy0]
    rw [div_le_iff₀ hd0] at hle
    push_cast
    linarith

theorem mul_inRange {x y : Fl A} {B C : ℕ} (hBC : B * C ≤ 2 ^ 53) (hx : InRange x B B)
    (hy : InRange y C C) : InRange (x.mul y) (B * C) (B * C) := by
  obtain ⟨x, rfl, hx1, hx2⟩ := hx
  obtain ⟨y, rfl, hy1, hy2⟩ := hy
  have h : |x.1 * y.1| ≤ B * C := by
    rw [abs_mul]
    exact mul_le_mul (abs_le.2 ⟨hx1, hx2⟩) (abs_le.2 ⟨hy1, hy2⟩) (abs_nonneg _) (by positivity)
  rw [abs_le] at h
  refine round_inRange hBC hBC ?_ ?_ <;> push_cast
  · exact h.1
  · exact h.2

theorem InRange.widen {x : Fl A} {B C B' C' : ℕ} (h : InRange x B C) (hB : B ≤ B') (hC : C ≤ C') :
    InRange x B' C' := by
  obtain ⟨y, e, h1, h2⟩ := h
  have hB' : (B : ℝ) ≤ B' := by exact_mod_cast hB
  have hC' : (C : ℝ) ≤ C' := by exact_mod_cast hC
  exact ⟨y, e, by linarith, by linarith⟩

/-- **C119**.  The gradient of the simulated log-likelihood consists of finite numbers even where probabilities
underflow: with `d` draws, `n` rows, entries of the design up to `X` and weights up to `W` in absolute value no
entry exceeds `2 d n X W`, as long as this number and `d` times it are at most `2^53`. -/
theorem float_mixed_gradient {u η g : ℝ} (hA : A.Grid g) (hacc : A.Accurate u η) (hu : u ≤ 1 / 4)
    (hη : η ≤ g / 2) (L : MathLib A) (obs : Fin n → O) (mixer : Fin n → Fin m) (t : Fin n → Fin d → Fl A)
    (choice weights : Fin n → Fl A) (x : Fin n → Fin d → Fl A) (X W : ℕ)
    (hsize : d * (n * (2 * d * X * W)) ≤ 2 ^ 53) (hn : n * 1000 ≤ 2 ^ 53) (hd : 0 < d)
    (hd2 : 2 * d * X ≤ 2 ^ 53) (hd3 : 2 * d * X * W ≤ 2 ^ 53) (hd' : 2 * d ≤ 2 ^ 53)
    (ht : ∀ r j, t r j ≠ .nan) (hc : ∀ r, IsNum (choice r) fun y => y = 0 ∨ y = 1)
    (hw : ∀ r, IsNum (weights r) fun y => -(W : ℝ) ≤ y ∧ y ≤ W)
    (hx : ∀ r j, IsNum (x r j) fun y => -(X : ℝ) ≤ y ∧ y ≤ X) :
    IsNum (floatMixedGradient L obs mixer t choice weights x) fun y =>
      |y| ≤ n * (2 * d * X * W : ℝ) := by
  have hp : ∀ r j, IsProb (floatProbArray L obs t r j) := fun r j =>
    float_probs_valid L obs _ r fun s _ => ht s j
  have hterm : ∀ (r : Fin n) (j : Fin d), InRange (((((choice r).sub (floatProbArray L obs t r j)).mul
      (floatScaled L mixer choice (floatProbArray L obs t) r j)).mul (x r j)).mul (weights r))
      (2 * d * X * W) (2 * d * X * W) := by
    intro r j
    refine mul_inRange hd3 (mul_inRange hd2 ?_ (hx r j)) (hw r)
    have h1 : InRange ((choice r).sub (floatProbArray L obs t r j)) 1 1 := by
      obtain ⟨c, ec, hc⟩ := hc r
      obtain ⟨p, ep, hp0, hp1⟩ := hp r j
      rw [ec, ep]
      simp only [Fl.sub, neg_fin]
      refine round_inRange (by norm_num) (by norm_num) ?_ ?_ <;>
        rcases hc with h | h <;> rw [h] <;> simp [FloatFormat.negNum] <;> linarith
    have h2 : InRange (floatScaled L mixer choice (floatProbArray L obs t) r j) 0 (2 * d) := by
      unfold floatScaled
      rw [pick_eq, pick_eq]
      exact seq_ratio hA hacc hu hη _ hd hd'
        (float_sequence_valid hA L mixer hc _ hp hn hd (by omega) (mixer r)).1 j
    have := mul_inRange (B := 1) (C := 2 * d) (by omega) h1 (h2.widen (Nat.zero_le _) le_rfl)
    rwa [_root_.one_mul] at this
  have hsum : ∀ j, InRange (Fl.sum ((List.finRange n).map fun r =>
      (((((choice r).sub (floatProbArray L obs t r j)).mul
        (floatScaled L mixer choice (floatProbArray L obs t) r j)).mul (x r j)).mul (weights r))))
      (n * (2 * d * X * W)) (n * (2 * d * X * W)) := by
    intro j
    have hb : n * (2 * d * X * W) ≤ 2 ^ 53 := (Nat.le_mul_of_pos_left _ hd).trans hsize
    have := sum_inRange ((List.finRange n).map fun r =>
      (((((choice r).sub (floatProbArray L obs t r j)).mul
        (floatScaled L mixer choice (floatProbArray L obs t) r j)).mul (x r j)).mul (weights r)))
      (2 * d * X * W) (2 * d * X * W) (fun z hz => by
        obtain ⟨r, -, rfl⟩ := List.mem_map.1 hz
        exact hterm r j) (by simpa using hb) (by simpa using hb)
    simpa using this
  obtain ⟨S, hS, h1, h2⟩ := sum_inRange (List.ofFn fun j => Fl.sum ((List.finRange n).map fun r =>
      (((((choice r).sub (floatProbArray L obs t r j)).mul
        (floatScaled L mixer choice (floatProbArray L obs t) r j)).mul (x r j)).mul (weights r))))
      (n * (2 * d * X * W)) (n * (2 * d * X * W)) (fun z hz => by
        obtain ⟨j, rfl⟩ := List.mem_ofFn.1 hz
        exact hsum j) (by simpa using hsize) (by simpa using hsize)
  obtain ⟨D, hD⟩ := posNat A (k := d) (by omega)
  have hd0 : (0 : ℝ) < d := by exact_mod_cast hd
  rw [List.length_ofFn] at h1 h2
  have hb : n * (2 * d * X * W) ≤ 2 ^ 53 := (Nat.le_mul_of_pos_left _ hd).trans hsize
  obtain ⟨y, hy, h3, h4⟩ := round_inRange (A := A) (r := S.1 / d) hb hb
    (by rw [le_div_iff₀ hd0]; push_cast at h1 ⊢; linarith)
    (by rw [div_le_iff₀ hd0]; push_cast at h2 ⊢; linarith)
  refine ⟨y, ?_, ?_⟩
  · unfold floatMixedGradient floatMean
    rw [hS, ← hD, Fl.round_num]
    simp only [Fl.div]
    rw [if_neg (by rw [hD]; exact hd0.ne'), hD, hy]
  · push_cast at h3 h4
    exact abs_le.2 ⟨h3, h4⟩

/-! ## Underflow -/

/-- A multiple of 1/32. -/
theorem gridNum {k : ℤ} (hk : |k| ≤ 2 ^ 53) : ∃ x : binary64.Num, x.1 = k / 32 := by
  have h0 : (k : ℝ) * (2 : ℝ) ^ (-5 : ℤ) = k / 32 := by
    rw [show (2 : ℝ) ^ (-5 : ℤ) = 1 / 32 by norm_num]; ring
  have h1 : (k : ℝ) / 32 ∈ Binary64.F := h0 ▸ Binary64.F_mul hk (by norm_num)
  refine ⟨⟨k / 32, Binary64.rnd_of_mem h1, ?_⟩, rfl⟩
  refine le_trans ?_ (Binary64.pow_le_big (e := 53) (by norm_num))
  have h2 : |(k : ℝ)| ≤ 2 ^ 53 := by exact_mod_cast hk
  rw [abs_div, abs_of_pos (by norm_num : (0 : ℝ) < 32), show (2 : ℝ) ^ (53 : ℤ) = 2 ^ 53 by norm_cast]
  have := abs_nonneg (k : ℝ)
  linarith

theorem foldl_panel {ι : Type} (P : ι → Prop) [DecidablePred P] (f : ι → Fl binary64) {c : ℕ} (hc : c ≤ 32000)
    (l : List ι) (h1 : ∀ r ∈ l, InRange (f r) 1000 0)
    (h2 : ∀ r ∈ l, P r → IsNum (f r) fun y => y ≤ -(c : ℝ) / 32) (k N : ℕ) (hN : N ≤ k)
    (hk : (k + l.length) * 32000 ≤ 2 ^ 53) (acc : Fl binary64)
    (hacc : IsNum acc fun y => -(k * 1000 : ℝ) ≤ y ∧ y ≤ -((N * c : ℕ) : ℝ) / 32) :
    IsNum (l.foldl (fun s r => s.add (f r)) acc) fun y =>
      y ≤ -(((N + l.countP (P ·)) * c : ℕ) : ℝ) / 32 := by
  induction l generalizing k N acc with
  | nil =>
    obtain ⟨y, hy, -, h⟩ := hacc
    exact ⟨y, hy, by simpa using h⟩
  | cons r l ih =>
    rw [List.length_cons] at hk
    obtain ⟨a, rfl, ha1, ha2⟩ := hacc
    obtain ⟨y, hy, hy1, hy2⟩ := h1 r List.mem_cons_self
    obtain ⟨b, hb⟩ := negNat binary64 (k := (k + 1) * 1000) (by linarith)
    have key : ∀ N' : ℕ, N' ≤ k + 1 → a.1 + y.1 ≤ -((N' * c : ℕ) : ℝ) / 32 →
        IsNum ((Fl.fin a).add (f r)) fun z =>
          -(((k + 1 : ℕ) : ℝ) * 1000 : ℝ) ≤ z ∧ z ≤ -((N' * c : ℕ) : ℝ) / 32 := by
      intro N' hN' hle
      have hb53 : N' * c ≤ 2 ^ 53 := (Nat.mul_le_mul hN' hc).trans (by linarith)
      obtain ⟨e, he⟩ := gridNum (k := -((N' * c : ℕ) : ℤ)) (by rw [abs_neg, Nat.abs_cast]; exact_mod_cast hb53)
      have he' : e.1 = -((N' * c : ℕ) : ℝ) / 32 := by rw [he]; push_cast; ring
      obtain ⟨z, hz, -, h3, h4⟩ := round_between (A := binary64) (a := b) (b := e) (r := a.1 + y.1)
        (by rw [hb]; push_cast at hy1 ⊢; linarith) (by rw [he']; exact hle)
      refine ⟨z, by rw [hy]; exact hz, ?_, he' ▸ h4⟩
      rw [hb] at h3
      push_cast at h3 ⊢
      exact h3
    rw [List.foldl_cons]
    by_cases hP : P r
    · rw [List.countP_cons_of_pos (by simpa using hP),
        show N + (l.countP (P ·) + 1) = N + 1 + l.countP (P ·) by ring]
      refine ih (fun s hs => h1 s (List.mem_cons_of_mem _ hs)) (fun s hs => h2 s (List.mem_cons_of_mem _ hs))
        (k + 1) (N + 1) (by linarith) (by linarith) _ (key (N + 1) (by linarith) ?_)
      obtain ⟨y', hy', h3⟩ := h2 r List.mem_cons_self hP
      rw [hy] at hy'
      have := Fl.fin.inj hy'
      subst this
      push_cast at ha2 ⊢
      linarith
    · rw [List.countP_cons_of_neg (by simpa using hP)]
      refine ih (fun s hs => h1 s (List.mem_cons_of_mem _ hs)) (fun s hs => h2 s (List.mem_cons_of_mem _ hs))
        (k + 1) N (by linarith) (by linarith) _ (key N (by linarith) ?_)
      push_cast at ha2 hy2 ⊢
      linarith

theorem card_le_countP (mixer : Fin n → Fin m) (k : Fin m) (rows : Finset (Fin n))
    (h : ∀ r ∈ rows, mixer r = k) : rows.card ≤ (rowsOfObs mixer k).countP (· ∈ rows) := by
  rw [List.countP_eq_length_filter]
  refine le_trans (Finset.card_le_card fun r hr => ?_) (List.toFinset_card_le _)
  simp only [List.mem_toFinset, List.mem_filter, rowsOfObs, List.mem_finRange, true_and]
  exact ⟨by simpa using h r hr, by simpa using hr⟩

/-- The exponential of a number below -746 is zero. -/
theorem exp_underflow {x : Fl binary64} (hx : IsNum x fun y => y ≤ -746) :
    (x.exp roundedLib).guardZero = .minComp binary64 := by
  obtain ⟨x, rfl, hx⟩ := hx
  have h2 := Real.log_two_lt_d9
  have hz : Binary64.rnd (Real.exp x.1) = 0 := by
    refine Binary64.rnd_tiny (Real.exp_pos _).le ?_
    refine lt_of_lt_of_eq (Real.exp_lt_exp.2 (?_ : _ < ((-1075 : ℤ) : ℝ) * Real.log 2)) ?_
    · push_cast; linarith
    · rw [← Real.log_zpow, Real.exp_log (zpow_pos (by norm_num) _)]
  obtain ⟨z, h1, h3, -⟩ := Fl.round_between (A := binary64) (r := Real.exp x.1)
    (a := binary64.zero) (b := binary64.one) (Real.exp_pos _).le (Real.exp_le_one_iff.2 (by linarith))
  change (Fl.round binary64 (Real.exp x.1)).guardZero = _
  rw [h1]
  have : z.1 = 0 := h3.trans hz
  simp [guardZero, this]

/-- The computed logarithm of a small probability. -/
theorem log_small {p : binary64.Num} {c : ℕ} (hc : c ≤ 32000) (hp0 : 0 < p.1)
    (hp : p.1 ≤ Real.exp (-(c : ℝ) / 32)) : (roundedLib.log p).1 ≤ -(c : ℝ) / 32 := by
  have hlog : Real.log p.1 ≤ -(c : ℝ) / 32 := by
    rw [← Real.log_exp (-(c : ℝ) / 32)]
    exact Real.log_le_log hp0 hp
  obtain ⟨e, he⟩ := gridNum (k := -(c : ℤ)) (by
    rw [abs_neg, Nat.abs_cast]
    exact_mod_cast hc.trans (by norm_num))
  have he' : e.1 = -(c : ℝ) / 32 := by rw [he]; push_cast; ring
  change Binary64.rnd _ ≤ _
  rw [← he', ← Binary64.rnd_of_mem (Binary64.mem_F e), he']
  refine Binary64.rnd_mono (max_le ?_ ((min_le_right _ _).trans hlog))
  have : (c : ℝ) ≤ 32000 := by exact_mod_cast hc
  linarith

/-- **C119**.  *Long panels.*  If a person makes `N` choices whose computed probabilities at a draw are at most
`exp (-c / 32)` and `N c` is at least `746 * 32` (1086 choices with probabilities up to 0.5, `c = 22`; 2171 with
probabilities up to 0.709, `c = 11`), the probability of their sequence of choices at this draw underflows and is
replaced by 1e-300, whatever the probabilities are. -/
theorem float_long_panel (mixer : Fin n → Fin m) {choice : Fin n → Fl binary64}
    (hc : ∀ r, IsNum (choice r) fun y => y = 0 ∨ y = 1) (p : Fin n → Fin d → Fl binary64)
    (hp : ∀ r j, IsProb (p r j)) (hn : n * 32000 ≤ 2 ^ 53) (k : Fin m) (j : Fin d) (rows : Finset (Fin n))
    (c : ℕ) (hc' : c ≤ 32000) (hrows : ∀ r ∈ rows, mixer r = k ∧ IsNum (choice r) (· = 1) ∧
      IsNum (p r j) fun y => y ≤ Real.exp (-(c : ℝ) / 32)) (hN : 746 * 32 ≤ rows.card * c) :
    floatSequence roundedLib mixer choice p k j = .minComp binary64 := by
  unfold floatSequence
  refine exp_underflow ?_
  have h := foldl_panel (fun r => r ∈ rows)
    (fun r => (Fl.round binary64 1).mul ((choice r).mul ((p r j).log roundedLib))) hc' (rowsOfObs mixer k)
    (fun r _ => log_term roundedLib (hc r) (hp r j)) (fun r _ hr => by
      obtain ⟨-, ⟨a, ha, ha1⟩, ⟨y, hy, hy1⟩⟩ := hrows r hr
      obtain ⟨y', hy', hy0, -⟩ := hp r j
      rw [hy] at hy'
      obtain rfl := Fl.fin.inj hy'
      have hl : (Fl.fin y).log roundedLib = .fin (roundedLib.log y) := by
        simp only [Fl.log, if_neg hy0.ne', if_neg (not_lt.2 hy0.le)]
      refine ⟨roundedLib.log y, ?_, log_small hc' hy0 hy1⟩
      rw [ha, hy, hl, Fl.one_mul]
      simp only [Fl.mul, ha1, _root_.one_mul]
      exact Fl.round_num _) 0 0 le_rfl (by
      have := length_rowsOfObs_le mixer k
      linarith) (.round binary64 0) ⟨binary64.zero, Fl.round_zero, by simp [FloatFormat.zero]⟩
  obtain ⟨y, hy, h⟩ := h
  refine ⟨y, ?_, h.trans ?_⟩
  · unfold floatLogSequence Fl.sum
    rw [List.foldl_map]
    exact hy
  · have h1 := card_le_countP mixer k rows fun r hr => (hrows r hr).1
    have h2 : 746 * 32 ≤ (0 + (rowsOfObs mixer k).countP (· ∈ rows)) * c := by
      rw [_root_.zero_add]
      exact hN.trans (Nat.mul_le_mul_right _ h1)
    have h3 : ((746 * 32 : ℕ) : ℝ) ≤ (((0 + (rowsOfObs mixer k).countP (· ∈ rows)) * c : ℕ) : ℝ) := by
      exact_mod_cast h2
    push_cast at h3 ⊢
    linarith

/-- **C119**.  So the log-likelihood is flat there: two sets of utilities at which every unit makes as many such
choices have the same log-likelihood. -/
theorem float_long_panel_flat (obs : Fin n → O) (mixer : Fin n → Fin m) {choice : Fin n → Fl binary64}
    (weights : Fin n → Fl binary64) (hc : ∀ r, IsNum (choice r) fun y => y = 0 ∨ y = 1)
    (t t' : Fin n → Fin d → Fl binary64) (ht : ∀ r j, t r j ≠ .nan) (ht' : ∀ r j, t' r j ≠ .nan)
    (hn : n * 32000 ≤ 2 ^ 53) (rows : Fin m → Finset (Fin n)) (c : ℕ) (hc' : c ≤ 32000)
    (hrows : ∀ k, ∀ r ∈ rows k, mixer r = k ∧ IsNum (choice r) (· = 1) ∧ ∀ j,
      IsNum (floatProbArray roundedLib obs t r j) (fun y => y ≤ Real.exp (-(c : ℝ) / 32)) ∧
      IsNum (floatProbArray roundedLib obs t' r j) fun y => y ≤ Real.exp (-(c : ℝ) / 32))
    (hN : ∀ k, 746 * 32 ≤ (rows k).card * c) :
    floatMixedLogLik roundedLib obs mixer t choice weights =
      floatMixedLogLik roundedLib obs mixer t' choice weights := by
  unfold floatMixedLogLik
  congr 1
  refine List.map_congr_left fun k _ => ?_
  congr 2
  unfold floatSequenceProb
  congr 1
  funext j
  rw [float_long_panel mixer hc (floatProbArray roundedLib obs t) (fun r j => float_probs_valid roundedLib obs _ r fun s _ => ht s j) hn k j
      (rows k) c hc' (fun r hr => ⟨(hrows k r hr).1, (hrows k r hr).2.1, ((hrows k r hr).2.2 j).1⟩) (hN k),
    float_long_panel mixer hc (floatProbArray roundedLib obs t') (fun r j => float_probs_valid roundedLib obs _ r fun s _ => ht' s j) hn k j
      (rows k) c hc' (fun r hr => ⟨(hrows k r hr).1, (hrows k r hr).2.1, ((hrows k r hr).2.2 j).2⟩) (hN k)]

theorem clip_fin {v : A.Num} (h : |v.1| ≤ 700) : (Fl.fin v).clip = .fin v := by
  rw [abs_le] at h
  have h7 : A.n700.1 = 700 := rfl
  have hm : A.neg700.1 = -700 := rfl
  unfold clip
  simp only [round_700, round_neg700, Fl.lt, h7, hm, if_neg (not_lt.2 h.1), if_neg (not_lt.2 h.2)]

/-- A number with integral bounds, rounded. -/
theorem round_int {r : ℝ} {a b : ℤ} (ha : |a| ≤ 2 ^ 53) (hb : |b| ≤ 2 ^ 53) (h1 : a ≤ r) (h2 : r ≤ b) :
    IsNum (Fl.round A r) fun y => a ≤ y ∧ y ≤ b := by
  obtain ⟨y, hy, -, h3, h4⟩ := round_between (a := A.intNum a ha) (b := A.intNum b hb) h1 h2
  exact ⟨y, hy, h3, h4⟩

/-- The probability of an alternative whose utility is at most -1, next to one with utility 0. -/
theorem low_prob (obs : Fin n → O) (t : Fin n → Fl binary64) (r s : Fin n) (hs : obs s = obs r)
    (ht : ∀ s, obs s = obs r → t s ≠ .nan) {v : binary64.Num} (hv : v.1 ≤ -1) (hv' : -700 ≤ v.1) (hr : t r = .fin v)
    (h0 : t s = .fin binary64.zero) :
    IsNum (floatLongProbs roundedLib obs t r) fun y => y ≤ Real.exp (-((31 : ℕ) : ℝ) / 32) := by
  have h38 : (3 / 8 : ℝ) ≤ Real.exp (-((31 : ℕ) : ℝ) / 32) := by
    have h1 : Real.exp (-((31 : ℕ) : ℝ) / 32) * Real.exp 1 = Real.exp (1 / 32) := by
      rw [← Real.exp_add]; norm_num
    have h2 := Real.add_one_le_exp (1 / 32 : ℝ)
    have h3 := Real.exp_one_lt_d9
    have h4 := Real.exp_pos (-((31 : ℕ) : ℝ) / 32)
    nlinarith
  obtain ⟨q, hq⟩ := gridNum (k := 12) (by norm_num)
  have hq : q.1 = 3 / 8 := by rw [hq]; norm_num
  have he : Real.exp v.1 ≤ 3 / 8 := by
    have h1 : Real.exp v.1 * Real.exp 1 ≤ 1 := by
      rw [← Real.exp_add]; exact Real.exp_le_one_iff.2 (by linarith)
    have h2 := Real.exp_one_gt_d9
    nlinarith [Real.exp_pos v.1]
  obtain ⟨e, her, -, he0, heq⟩ := round_between (A := binary64) (a := binary64.zero) (b := q)
    (r := Real.exp v.1) (Real.exp_pos _).le (hq ▸ he)
  have he0 : 0 ≤ e.1 := he0
  have hexp : ((t r).clip.exp roundedLib) = .fin e := by
    rw [hr, clip_fin (abs_le.2 ⟨hv', by linarith⟩)]
    exact her
  have hz : ((t s).clip.exp roundedLib) = .fin binary64.one := by
    rw [h0, clip_fin (by simp [FloatFormat.zero])]
    change Fl.round binary64 (Real.exp 0) = _
    rw [Real.exp_zero, round_one]
  have hS := floatDenominator_atLeast roundedLib ht hs hz
  have h1 : binary64.one.1 = 1 := rfl
  have key : ∀ y : binary64.Num, (Fl.fin e).div (floatDenominator roundedLib obs t (obs r)) = .fin y →
      y.1 ≤ 3 / 8 := by
    intro y hy
    rcases hS with hS | ⟨S, hS, hS1⟩
    · rw [hS] at hy
      change Fl.round binary64 0 = _ at hy
      rw [round_fin hy, ← hq, ← q.2.1]
      refine binary64.mono ?_
      rw [hq]; norm_num
    · have hS1 : 1 ≤ S.1 := hS1
      rw [hS] at hy
      simp only [Fl.div] at hy
      rw [if_neg (by linarith)] at hy
      rw [round_fin hy]
      refine le_of_le_of_eq (binary64.mono ?_) q.2.1 |>.trans hq.le
      exact (div_le_self he0 hS1).trans heq
  obtain ⟨y, hy, hy0, -⟩ := float_probs_valid roundedLib obs t r ht
  refine ⟨y, hy, le_trans ?_ h38⟩
  unfold floatLongProbs at hy
  rw [pick_eq, hexp] at hy
  generalize hw : (Fl.fin e).div (floatDenominator roundedLib obs t (obs r)) = w at hy key
  cases w with
  | fin w =>
    simp only [guardZero] at hy
    split_ifs at hy
    · rw [minComp_eq] at hy
      obtain rfl := Fl.fin.inj hy
      refine minComp_le_zpow.trans ((zpow_lit _ (-2) (by norm_num)).trans ?_)
      norm_num
    · obtain rfl := Fl.fin.inj hy
      exact key w rfl
  | pinf => cases hy
  | ninf => cases hy
  | nan => cases hy

/-- A column of a table with two rows for each of `T` choices: `a` in the first row of each, `b` in the second. -/
def alternating (T : ℕ) (a b : binary64.Num) (r : Fin (2 * T)) : Fl binary64 :=
  if r.1 % 2 = 0 then .fin a else .fin b

theorem alternating_ne_nan (T : ℕ) (a b : binary64.Num) (r : Fin (2 * T)) : alternating T a b r ≠ .nan := by
  unfold alternating
  split_ifs <;> simp

theorem alternating_low (T : ℕ) (v : binary64.Num) (hv : -700 ≤ v.1 ∧ v.1 ≤ -1) {r : Fin (2 * T)}
    (hr : r.1 % 2 = 0) (j : Fin d) :
    IsNum (floatProbArray roundedLib (fun r : Fin (2 * T) => r.1 / 2)
      (fun r (_ : Fin d) => alternating T v binary64.zero r) r j)
      fun y => y ≤ Real.exp (-((31 : ℕ) : ℝ) / 32) := by
  have h1 := r.2
  refine low_prob _ _ r ⟨r.1 + 1, by omega⟩ (by dsimp only; omega) (fun s _ => ?_) hv.2 hv.1 (by simp [hr, alternating]) ?_
  · exact alternating_ne_nan T _ _ s
  · unfold alternating
    exact if_neg (by dsimp only; omega)

theorem alternating_choice (T : ℕ) (r : Fin (2 * T)) :
    IsNum (alternating T binary64.one binary64.zero r) fun y => y = 0 ∨ y = 1 := by
  unfold alternating
  split_ifs
  · exact ⟨_, rfl, Or.inr rfl⟩
  · exact ⟨_, rfl, Or.inl rfl⟩

theorem le_card_even (T : ℕ) : T ≤ (Finset.univ.filter fun r : Fin (2 * T) => r.1 % 2 = 0).card := by
  have := Finset.card_le_card_of_injOn (s := (Finset.univ : Finset (Fin T)))
    (t := Finset.univ.filter fun r : Fin (2 * T) => r.1 % 2 = 0)
    (fun i => ⟨2 * i.1, by have := i.2; omega⟩) (fun i _ => by simp) (fun a _ b _ h => by
      have := congrArg Fin.val h
      dsimp only at this
      exact Fin.ext (by omega))
  simpa using this

/-- C119: one person, 800 or more choices between two alternatives, the chosen one with utility `v`, the other one
with utility 0 (rows `2 i` and `2 i + 1` are the alternatives of choice `i`), and any number of draws.  The computed
log-likelihood is the same for all `v` from -700 to -1. -/
theorem float_panel_forgets {T : ℕ} (hT : 800 ≤ T) (hT' : 2 * T * 32000 ≤ 2 ^ 53) (d : ℕ)
    (v v' : binary64.Num) (hv : -700 ≤ v.1 ∧ v.1 ≤ -1) (hv' : -700 ≤ v'.1 ∧ v'.1 ≤ -1) :
    floatMixedLogLik roundedLib (fun r : Fin (2 * T) => r.1 / 2) (fun _ => (0 : Fin 1))
        (fun r (_ : Fin d) => alternating T v binary64.zero r) (alternating T binary64.one binary64.zero)
        (fun _ => .fin binary64.one) =
      floatMixedLogLik roundedLib (fun r : Fin (2 * T) => r.1 / 2) (fun _ => (0 : Fin 1))
        (fun r (_ : Fin d) => alternating T v' binary64.zero r) (alternating T binary64.one binary64.zero)
        (fun _ => .fin binary64.one) := by
  refine float_long_panel_flat _ _ _ (alternating_choice T) _ _ (fun r _ => alternating_ne_nan T _ _ r)
    (fun r _ => alternating_ne_nan T _ _ r) hT' (fun _ => Finset.univ.filter fun r => r.1 % 2 = 0) 31
    (by norm_num) (fun k r hr => ?_) (fun k => ?_)
  · have hr : r.1 % 2 = 0 := by simpa using hr
    exact ⟨Subsingleton.elim _ _, ⟨binary64.one, by simp [alternating, hr], rfl⟩,
      fun j => ⟨alternating_low T v hv hr j, alternating_low T v' hv' hr j⟩⟩
  · have h1 := le_card_even T
    omega

theorem foldl_half {ι : Type} (P : ι → Prop) [DecidablePred P] (f : ι → Fl binary64) (l : List ι)
    (h1 : ∀ r ∈ l, AtLeast 0 (f r)) (h2 : ∀ r ∈ l, P r → AtLeast (1 / 2) (f r)) (N : ℕ)
    (hN : (N + l.length) * 16 ≤ 2 ^ 53) (acc : Fl binary64) (hacc : AtLeast ((N : ℝ) / 2) acc) :
    AtLeast (((N + l.countP (P ·) : ℕ) : ℝ) / 2) (l.foldl (fun s r => s.add (f r)) acc) := by
  induction l generalizing N acc with
  | nil => simpa using hacc
  | cons r l ih =>
    rw [List.length_cons] at hN
    have key : ∀ (N' : ℕ) (δ : ℝ), N' ≤ N + 1 → (N' : ℝ) / 2 ≤ N / 2 + δ → AtLeast δ (f r) →
        AtLeast ((N' : ℝ) / 2) (acc.add (f r)) := by
      intro N' δ hN' hle hr
      obtain ⟨e, he⟩ := gridNum (k := ((N' * 16 : ℕ) : ℤ)) (by
        rw [Nat.abs_cast]
        have : N' * 16 ≤ 2 ^ 53 := by linarith
        exact_mod_cast this)
      have he' : e.1 = (N' : ℝ) / 2 := by rw [he]; push_cast; ring
      rcases hacc with rfl | ⟨a, rfl, ha⟩
      · rcases hr with h | ⟨y, h, -⟩ <;> rw [h] <;> exact Or.inl rfl
      · rcases hr with h | ⟨y, h, hy⟩ <;> rw [h]
        · exact Or.inl rfl
        · rcases Fl.round_above (a := e) (r := a.1 + y.1) (by rw [he']; linarith) with h' | ⟨z, h', -, h0⟩
          · exact Or.inl h'
          · exact Or.inr ⟨z, h', he' ▸ h0⟩
    rw [List.foldl_cons]
    by_cases hP : P r
    · rw [List.countP_cons_of_pos (by simpa using hP),
        show N + (l.countP (P ·) + 1) = N + 1 + l.countP (P ·) by ring]
      exact ih (fun s hs => h1 s (List.mem_cons_of_mem _ hs)) (fun s hs => h2 s (List.mem_cons_of_mem _ hs))
        (N + 1) (by linarith) _ (key (N + 1) (1 / 2) le_rfl (by push_cast; linarith) (h2 r List.mem_cons_self hP))
    · rw [List.countP_cons_of_neg (by simpa using hP)]
      exact ih (fun s hs => h1 s (List.mem_cons_of_mem _ hs)) (fun s hs => h2 s (List.mem_cons_of_mem _ hs))
        N (by linarith) _ (key N 0 (by linarith) (by linarith) (h1 r List.mem_cons_self))

theorem floatMean_one (x : Fin 1 → Fl binary64) : floatMean x = x 0 := by
  have hone : binary64.one.1 = 1 := rfl
  unfold floatMean
  simp only [List.ofFn_succ, List.ofFn_zero, Fl.sum, List.foldl_cons, List.foldl_nil, Nat.cast_one, round_one]
  rw [Fl.zero_add]
  cases x 0 with
  | fin y => exact div_one_num y
  | pinf => simp [Fl.div, hone]
  | ninf => simp [Fl.div, hone]
  | nan => rfl

/-- C119: yet the gradient of this log-likelihood, for the coefficient of a variable that is 1 for the chosen
alternatives and 0 for the others (so `v` itself), is at least half the number of choices, at every `v` from -700 to
-1 (with one draw). -/
theorem float_panel_gradient {T : ℕ} (hT : 800 ≤ T) (hT' : 2 * T * 32000 ≤ 2 ^ 53) (v : binary64.Num)
    (hv : -700 ≤ v.1 ∧ v.1 ≤ -1) :
    AtLeast ((T : ℝ) / 2) (floatMixedGradient roundedLib (fun r : Fin (2 * T) => r.1 / 2) (fun _ => (0 : Fin 1))
      (fun r (_ : Fin 1) => alternating T v binary64.zero r) (alternating T binary64.one binary64.zero)
      (fun _ => .fin binary64.one) fun r _ => alternating T binary64.one binary64.zero r) := by
  have hone : binary64.one.1 = 1 := rfl
  have hzero : binary64.zero.1 = 0 := rfl
  set obs : Fin (2 * T) → ℕ := fun r => r.1 / 2
  set t : Fin (2 * T) → Fin 1 → Fl binary64 := fun r _ => alternating T v binary64.zero r with ht
  set choice := alternating T binary64.one binary64.zero with hch
  have hp : ∀ r j, IsProb (floatProbArray roundedLib obs t r j) := fun r j =>
    float_probs_valid roundedLib obs _ r fun s _ => alternating_ne_nan T _ _ s
  have hseq : ∀ j, floatSequence roundedLib (fun _ => (0 : Fin 1)) choice (floatProbArray roundedLib obs t) 0 j =
      .minComp binary64 := by
    intro j
    refine float_long_panel _ (alternating_choice T) _ hp hT' 0 j
      (Finset.univ.filter fun r => r.1 % 2 = 0) 31 (by norm_num) (fun r hr => ?_) ?_
    · have hr : r.1 % 2 = 0 := by simpa using hr
      exact ⟨rfl, ⟨binary64.one, by simp [alternating, hr], rfl⟩, alternating_low T v hv hr j⟩
    · have h1 := le_card_even T
      omega
  have hmean : ∀ x : Fin 1 → Fl binary64, floatMean x = x 0 := floatMean_one
  have hsc : ∀ r j, floatScaled roundedLib (fun _ => (0 : Fin 1)) choice (floatProbArray roundedLib obs t) r j =
      .fin binary64.one := by
    intro r j
    unfold floatScaled floatSequenceProb
    rw [pick_eq, pick_eq, hmean, hseq, hseq, minComp_eq]
    have := binary64.minComp_pos
    have h0 : binary64.minC.1 ≠ 0 := this.ne'
    simp only [Fl.div, if_neg h0, div_self h0, round_one]
  have hexp : Real.exp (-((31 : ℕ) : ℝ) / 32) ≤ 1 / 2 := by
    have h1 : Real.exp (-((31 : ℕ) : ℝ) / 32) * Real.exp (31 / 32) = 1 := by
      rw [← Real.exp_add]; norm_num
    have h2 := Real.quadratic_le_exp_of_nonneg (x := 31 / 32) (by norm_num)
    have h3 := Real.exp_pos (-((31 : ℕ) : ℝ) / 32)
    nlinarith
  have hterm : ∀ r : Fin (2 * T), r.1 % 2 = 0 → AtLeast (1 / 2)
      (((((choice r).sub (floatProbArray roundedLib obs t r 0)).mul
        (floatScaled roundedLib (fun _ => (0 : Fin 1)) choice (floatProbArray roundedLib obs t) r 0)).mul
        (choice r)).mul (.fin binary64.one)) := by
    intro r hr
    obtain ⟨q, hq, hq0, -⟩ := hp r 0
    obtain ⟨q', hq', hle⟩ := alternating_low T v hv hr (0 : Fin 1)
    have hq'' : floatProbArray roundedLib obs t r 0 = .fin q' := hq'
    rw [hq] at hq''
    obtain rfl := Fl.fin.inj hq''
    obtain ⟨e, he⟩ := gridNum (k := 16) (by norm_num)
    have he' : e.1 = 1 / 2 := by rw [he]; norm_num
    have hc1 : choice r = .fin binary64.one := by simp [hch, alternating, hr]
    obtain ⟨y, hy, -, hy1, -⟩ := round_between (A := binary64) (a := e) (b := binary64.one)
      (r := binary64.one.1 + (binary64.negNum q).1) (by
        simp only [FloatFormat.negNum]
        rw [he', hone]; linarith) (by
        simp only [FloatFormat.negNum]
        rw [hone]; linarith)
    have hsub : (Fl.fin binary64.one).sub (.fin q) = .fin y := by
      simp only [Fl.sub, neg_fin]
      exact hy
    rw [hsc, hc1, hq, hsub, mul_one_num, mul_one_num, mul_one_num]
    exact Or.inr ⟨y, rfl, he' ▸ hy1⟩
  unfold floatMixedGradient
  rw [hmean]
  unfold Fl.sum
  rw [List.foldl_map]
  have h := foldl_half (fun r : Fin (2 * T) => r.1 % 2 = 0) (fun r =>
    ((((choice r).sub (floatProbArray roundedLib obs t r 0)).mul
      (floatScaled roundedLib (fun _ => (0 : Fin 1)) choice (floatProbArray roundedLib obs t) r 0)).mul
      (choice r)).mul (.fin binary64.one)) (List.finRange (2 * T)) (fun r _ => ?_) (fun r _ hr => ?_) 0
    (by rw [List.length_finRange]; linarith) (.round binary64 0)
    (Or.inr ⟨binary64.zero, Fl.round_zero, by simp [FloatFormat.zero]⟩)
  · refine h.mono (div_le_div_of_nonneg_right ?_ (by norm_num))
    rw [_root_.zero_add]
    refine Nat.cast_le.2 ((le_card_even T).trans ?_)
    rw [List.countP_eq_length_filter]
    refine le_trans (Finset.card_le_card fun r hr => ?_) (List.toFinset_card_le _)
    simpa using hr
  · by_cases hr : r.1 % 2 = 0
    · exact (hterm r hr).mono (by norm_num)
    · obtain ⟨q, hq, -, -⟩ := hp r 0
      have hc0 : choice r = .fin binary64.zero := by simp [hch, alternating, hr]
      have hsub : (Fl.fin binary64.zero).sub (.fin q) = .fin (binary64.negNum q) := by
        simp only [Fl.sub, neg_fin]
        rw [← Fl.round_zero, Fl.zero_add]
      have hm : ∀ y : binary64.Num, (Fl.fin y).mul (.fin binary64.zero) = .fin binary64.zero := by
        intro y
        simp only [Fl.mul, hzero, mul_zero, Fl.round_zero]
      rw [hsc, hc0, hq, hsub, mul_one_num, hm, mul_one_num]
      exact Or.inr ⟨binary64.zero, rfl, le_rfl⟩
  · exact hterm r hr

/-- The probability of an alternative with utility 0 next to one with utility 360. -/
theorem prob_360 (obs : Fin n → O) (t : Fin n → Fl binary64) (r s : Fin n) (hrs : rowsOfObs obs (obs r) = [r, s])
    (hr : t r = .fin binary64.zero) (hs : t s = .fin (binary64.intNum 360 (by norm_num))) :
    IsNum (floatLongProbs roundedLib obs t r) fun y => (2 : ℝ) ^ (-520 : ℤ) ≤ y ∧ y ≤ (2 : ℝ) ^ (-519 : ℤ) := by
  have h2 := Real.log_two_gt_d9
  have h2' := Real.log_two_lt_d9
  have hone : binary64.one.1 = 1 := rfl
  have her : ((t r).clip.exp roundedLib) = .fin binary64.one := by
    rw [hr, clip_fin (by simp [FloatFormat.zero])]
    change Fl.round binary64 (Real.exp 0) = _
    rw [Real.exp_zero, round_one]
  have h360 : (binary64.intNum 360 (by norm_num)).1 = 360 := by simp [FloatFormat.intNum]
  have hE1 : (2 : ℝ) ^ (519 : ℤ) ≤ Real.exp 360 := zpow_le_exp (by push_cast; linarith)
  have hE2 : Real.exp 360 ≤ (2 : ℝ) ^ (519 : ℤ) * (2 - 1 / 4) := by
    have h1 : Real.exp 360 = Real.exp (519 * Real.log 2) * Real.exp (360 - 519 * Real.log 2) := by
      rw [← Real.exp_add]; ring_nf
    have h3 : Real.exp (519 * Real.log 2) = (2 : ℝ) ^ (519 : ℤ) := by
      have : (519 : ℝ) * Real.log 2 = Real.log ((2 : ℝ) ^ (519 : ℤ)) := by rw [Real.log_zpow]; norm_num
      rw [this, Real.exp_log (zpow_pos (by norm_num) _)]
    rw [h1, h3]
    refine mul_le_mul_of_nonneg_left ?_ (zpow_pos (by norm_num) _).le
    have h4 : Real.exp (360 - 519 * Real.log 2) ≤ Real.exp (1 / 2) := Real.exp_le_exp.2 (by linarith)
    have h5 : Real.exp (1 / 2) * Real.exp (1 / 2) = Real.exp 1 := by rw [← Real.exp_add]; norm_num
    have h6 := Real.exp_one_lt_d9
    have h7 := Real.exp_pos (1 / 2)
    nlinarith
  obtain ⟨e, he, -, he1, he2⟩ := round_between (A := binary64) (r := Real.exp 360)
    (a := Binary64.powNum 519 (by norm_num) (by norm_num)) (b := ⟨(7 : ℤ) * (2 : ℝ) ^ (517 : ℤ),
      Binary64.rnd_of_mem (Binary64.F_mul (by norm_num) (by norm_num)), by
        rw [abs_of_nonneg (by positivity)]
        refine le_trans ?_ (Binary64.pow_le_big (e := 520) (by norm_num))
        rw [show (520 : ℤ) = 3 + 517 by norm_num, Binary64.zpow_split]
        refine mul_le_mul_of_nonneg_right ?_ (zpow_pos (by norm_num) _).le
        norm_num⟩) hE1 (hE2.trans (by
        rw [show (519 : ℤ) = 2 + 517 by norm_num, Binary64.zpow_split]
        change _ ≤ ((7 : ℤ) : ℝ) * (2 : ℝ) ^ (517 : ℤ)
        generalize (2 : ℝ) ^ (517 : ℤ) = w
        norm_num
        linarith))
  have he1 : (2 : ℝ) ^ (519 : ℤ) ≤ e.1 := he1
  have he2 : e.1 ≤ ((7 : ℤ) : ℝ) * (2 : ℝ) ^ (517 : ℤ) := he2
  have hes : ((t s).clip.exp roundedLib) = .fin e := by
    rw [hs, clip_fin (by rw [h360]; norm_num)]
    change Fl.round binary64 (Real.exp (binary64.intNum 360 (by norm_num)).1) = _
    rw [h360]
    exact he
  have hlit : (1 : ℝ) ≤ (2 : ℝ) ^ (517 : ℤ) := one_le_zpow₀ (by norm_num) (by norm_num)
  have h520 : (2 : ℝ) ^ (520 : ℤ) = 8 * (2 : ℝ) ^ (517 : ℤ) := by
    rw [show (520 : ℤ) = 3 + 517 by norm_num, Binary64.zpow_split]; norm_num
  obtain ⟨S, hS, -, hS1, hS2⟩ := round_between (A := binary64) (r := binary64.one.1 + e.1)
    (a := Binary64.powNum 519 (by norm_num) (by norm_num)) (b := Binary64.powNum 520 (by norm_num) (by norm_num))
    (by change (2 : ℝ) ^ (519 : ℤ) ≤ _; rw [hone]; linarith)
    (by
      change _ ≤ (2 : ℝ) ^ (520 : ℤ)
      rw [hone, h520]
      clear h520 hE1 hE2 he1
      revert he2 hlit
      generalize (2 : ℝ) ^ (517 : ℤ) = w
      intro he2 hlit
      push_cast at he2
      linarith)
  have hS1 : (2 : ℝ) ^ (519 : ℤ) ≤ S.1 := hS1
  have hS2 : S.1 ≤ (2 : ℝ) ^ (520 : ℤ) := hS2
  have hS0 : 0 < S.1 := (zpow_pos (by norm_num : (0 : ℝ) < 2) _).trans_le hS1
  have hD : floatDenominator roundedLib obs t (obs r) = .fin S := by
    unfold floatDenominator
    rw [hrs]
    simp only [List.map_cons, List.map_nil, Fl.sum, List.foldl_cons, List.foldl_nil, her, hes, Fl.one_mul, Fl.zero_add]
    exact hS
  obtain ⟨y, hy, -, hy1, hy2⟩ := round_between (A := binary64) (r := binary64.one.1 / S.1)
    (a := Binary64.powNum (-520) (by norm_num) (by norm_num)) (b := Binary64.powNum (-519) (by norm_num) (by norm_num))
    (by
      change (2 : ℝ) ^ (-520 : ℤ) ≤ _
      rw [zpow_neg, hone, ← one_div]
      exact one_div_le_one_div_of_le hS0 hS2)
    (by
      change _ ≤ (2 : ℝ) ^ (-519 : ℤ)
      rw [zpow_neg, hone, ← one_div]
      exact one_div_le_one_div_of_le (zpow_pos (by norm_num) _) hS1)
  have hy1 : (2 : ℝ) ^ (-520 : ℤ) ≤ y.1 := hy1
  have hy0 : 0 < y.1 := (zpow_pos (by norm_num : (0 : ℝ) < 2) _).trans_le hy1
  refine ⟨y, ?_, hy1, hy2⟩
  unfold floatLongProbs
  rw [pick_eq, her, hD]
  simp only [Fl.div, if_neg hS0.ne']
  rw [hy]
  simp only [guardZero, if_neg hy0.ne']

theorem log_360 {y : binary64.Num} (h1 : (2 : ℝ) ^ (-520 : ℤ) ≤ y.1) (h2 : y.1 ≤ (2 : ℝ) ^ (-519 : ℤ)) :
    -361 ≤ (roundedLib.log y).1 ∧ (roundedLib.log y).1 ≤ -359 := by
  have hl := Real.log_two_gt_d9
  have hl' := Real.log_two_lt_d9
  have h0 : 0 < y.1 := (zpow_pos (by norm_num : (0 : ℝ) < 2) _).trans_le h1
  have e1 := Real.log_le_log (zpow_pos (by norm_num) _) h1
  have e2 := Real.log_le_log h0 h2
  rw [Real.log_zpow] at e1 e2
  push_cast at e1 e2
  constructor
  · exact_mod_cast le_nearNum (k := -361) (by norm_num) (by push_cast; linarith)
  · exact_mod_cast nearNum_le (k := -359) (by norm_num) (by push_cast; linarith)

/-- **C119**: *a longer sequence of improbable choices is reported to be more probable than a shorter one*.  Two
people, one draw; each choice is between an alternative with utility 0, which is chosen, and one with utility 360.
The first person chooses twice, the second three times.  The computed probability of the first sequence is positive
and less than that of the second, by a factor of at least `2^30`. -/
theorem float_sequence_order_reversed :
    ∃ a b : binary64.Num,
      floatSequenceProb roundedLib (fun r : Fin (2 * 5) => if r.1 < 4 then (0 : Fin 2) else 1)
        (alternating 5 binary64.one binary64.zero) (floatProbArray roundedLib (fun r : Fin (2 * 5) => r.1 / 2)
          fun r (_ : Fin 1) => alternating 5 binary64.zero (binary64.intNum 360 (by norm_num)) r) 0 = .fin a ∧
      floatSequenceProb roundedLib (fun r : Fin (2 * 5) => if r.1 < 4 then (0 : Fin 2) else 1)
        (alternating 5 binary64.one binary64.zero) (floatProbArray roundedLib (fun r : Fin (2 * 5) => r.1 / 2)
          fun r (_ : Fin 1) => alternating 5 binary64.zero (binary64.intNum 360 (by norm_num)) r) 1 = .fin b ∧
      0 < a.1 ∧ (2 : ℝ) ^ (30 : ℤ) * a.1 ≤ b.1 := by
  have hone : binary64.one.1 = 1 := rfl
  have hzero : binary64.zero.1 = 0 := rfl
  have hl := Real.log_two_gt_d9
  have hl' := Real.log_two_lt_d9
  set obs : Fin (2 * 5) → ℕ := fun r => r.1 / 2 with hobs
  set t : Fin (2 * 5) → Fin 1 → Fl binary64 := fun r _ => alternating 5 binary64.zero (binary64.intNum 360 (by norm_num)) r
    with ht
  set p := floatProbArray roundedLib obs t with hpdef
  have hmean : ∀ x : Fin 1 → Fl binary64, floatMean x = x 0 := floatMean_one
  have hp : ∀ r j, IsProb (p r j) := fun r j =>
    float_probs_valid roundedLib obs _ r fun s _ => alternating_ne_nan 5 _ _ s
  -- the rows with an odd number add nothing to the logarithm, the others about -360
  have hodd : ∀ r : Fin (2 * 5), r.1 % 2 ≠ 0 → (Fl.round binary64 1).mul
      ((alternating 5 binary64.one binary64.zero r).mul ((p r 0).log roundedLib)) = .fin binary64.zero := by
    intro r hr
    obtain ⟨q, hq, hq0, -⟩ := hp r 0
    have : alternating 5 binary64.one binary64.zero r = .fin binary64.zero := by simp [alternating, hr]
    rw [hq, this, Fl.one_mul]
    simp only [Fl.log, if_neg hq0.ne', if_neg (not_lt.2 hq0.le), Fl.mul, hzero, zero_mul, Fl.round_zero]
  have heven : ∀ r : Fin (2 * 5), r.1 % 2 = 0 → IsNum ((Fl.round binary64 1).mul
      ((alternating 5 binary64.one binary64.zero r).mul ((p r 0).log roundedLib))) fun y => -361 ≤ y ∧ y ≤ -359 := by
    intro r hr
    obtain ⟨q, hq, h1, h2⟩ := prob_360 obs (fun s => t s 0) r ⟨r.1 + 1, by have := r.2; omega⟩ (by
      rw [hobs]; revert hr; revert r; decide) (by simp [ht, alternating, hr]) (by
      simp only [ht, alternating]
      exact if_neg (by omega))
    have hq' : p r 0 = .fin q := hq
    have hq0 : 0 < q.1 := (zpow_pos (by norm_num : (0 : ℝ) < 2) _).trans_le h1
    have : alternating 5 binary64.one binary64.zero r = .fin binary64.one := by simp [alternating, hr]
    refine ⟨roundedLib.log q, ?_, log_360 h1 h2⟩
    rw [hq', this, Fl.one_mul]
    simp only [Fl.log, if_neg hq0.ne', if_neg (not_lt.2 hq0.le), Fl.mul, hone, _root_.one_mul, Fl.round_num]
  have hadd0 : ∀ x : binary64.Num, (Fl.fin x).add (.fin binary64.zero) = .fin x := by
    intro x
    simp only [Fl.add, hzero, _root_.add_zero, Fl.round_num]
  have r0 : rowsOfObs (fun r : Fin (2 * 5) => if r.1 < 4 then (0 : Fin 2) else 1) 0 = [0, 1, 2, 3] := by decide
  have r1 : rowsOfObs (fun r : Fin (2 * 5) => if r.1 < 4 then (0 : Fin 2) else 1) 1 = [4, 5, 6, 7, 8, 9] := by decide
  obtain ⟨l0, e0, l0a, l0b⟩ := heven 0 (by decide)
  obtain ⟨l2, e2, l2a, l2b⟩ := heven 2 (by decide)
  obtain ⟨l4, e4, l4a, l4b⟩ := heven 4 (by decide)
  obtain ⟨l6, e6, l6a, l6b⟩ := heven 6 (by decide)
  obtain ⟨l8, e8, l8a, l8b⟩ := heven 8 (by decide)
  obtain ⟨s0, f0, s0a, s0b⟩ := round_int (A := binary64) (a := -722) (b := -718) (r := l0.1 + l2.1)
    (by norm_num) (by norm_num) (by push_cast; linarith) (by push_cast; linarith)
  obtain ⟨s1, f1, s1a, s1b⟩ := round_int (A := binary64) (a := -722) (b := -718) (r := l4.1 + l6.1)
    (by norm_num) (by norm_num) (by push_cast; linarith) (by push_cast; linarith)
  push_cast at s0a s0b s1a s1b
  obtain ⟨s2, f2, s2a, s2b⟩ := round_int (A := binary64) (a := -1083) (b := -1077) (r := s1.1 + l8.1)
    (by norm_num) (by norm_num) (by push_cast; linarith) (by push_cast; linarith)
  push_cast at s2a s2b
  have hlog0 : floatLogSequence roundedLib (fun r : Fin (2 * 5) => if r.1 < 4 then (0 : Fin 2) else 1)
      (alternating 5 binary64.one binary64.zero) p 0 0 = .fin s0 := by
    unfold floatLogSequence
    rw [r0]
    simp only [List.map_cons, List.map_nil, Fl.sum, List.foldl_cons, List.foldl_nil]
    rw [e0, e2, hodd 1 (by decide), hodd 3 (by decide), Fl.zero_add, hadd0]
    change (Fl.add (Fl.round binary64 (l0.1 + l2.1)) _) = _
    rw [f0, hadd0]
  have hlog1 : floatLogSequence roundedLib (fun r : Fin (2 * 5) => if r.1 < 4 then (0 : Fin 2) else 1)
      (alternating 5 binary64.one binary64.zero) p 1 0 = .fin s2 := by
    unfold floatLogSequence
    rw [r1]
    simp only [List.map_cons, List.map_nil, Fl.sum, List.foldl_cons, List.foldl_nil]
    rw [e4, e6, e8, hodd 5 (by decide), hodd 7 (by decide), hodd 9 (by decide), Fl.zero_add, hadd0]
    change (Fl.add (Fl.add (Fl.add (Fl.round binary64 (l4.1 + l6.1)) _) _) _) = _
    rw [f1, hadd0]
    change (Fl.add (Fl.round binary64 (s1.1 + l8.1)) _) = _
    rw [f2, hadd0]
  obtain ⟨a, ha, -, ha1, ha2⟩ := round_between (A := binary64) (r := Real.exp s0.1)
    (a := Binary64.powNum (-1074) (by norm_num) (by norm_num)) (b := Binary64.powNum (-1030) (by norm_num) (by norm_num))
    (zpow_le_exp (by push_cast; linarith)) (exp_le_zpow (by push_cast; linarith))
  have ha0 : 0 < a.1 := (zpow_pos (by norm_num : (0 : ℝ) < 2) _).trans_le ha1
  have ha2 : a.1 ≤ (2 : ℝ) ^ (-1030 : ℤ) := ha2
  refine ⟨a, binary64.minC, ?_, ?_, ha0, ?_⟩
  · unfold floatSequenceProb
    rw [hmean]
    unfold floatSequence
    rw [hlog0]
    change (Fl.round binary64 (Real.exp s0.1)).guardZero = _
    rw [ha]
    simp only [guardZero, if_neg ha0.ne']
  · unfold floatSequenceProb
    rw [hmean]
    unfold floatSequence
    rw [hlog1, exp_underflow ⟨s2, rfl, by linarith⟩, minComp_eq]
  · refine le_trans ?_ le_minC
    rw [show (-1000 : ℤ) = 30 + -1030 by norm_num, Binary64.zpow_split]
    exact mul_le_mul_of_nonneg_left ha2 (zpow_pos (by norm_num) _).le

/-- C119: the theorems apply to binary64 and tables like the ones above. -/
example (v : binary64.Num) :
    (∀ k, IsProb (floatSequenceProb roundedLib (fun r : Fin (2 * 5) => if r.1 < 4 then (0 : Fin 2) else 1)
      (alternating 5 binary64.one binary64.zero) (floatProbArray roundedLib (fun r : Fin (2 * 5) => r.1 / 2)
        fun r (_ : Fin 3) => alternating 5 v binary64.zero r) k)) ∧
    (IsNum (floatMixedLogLik roundedLib (fun r : Fin (2 * 5) => r.1 / 2)
      (fun r => if r.1 < 4 then (0 : Fin 2) else 1) (fun r (_ : Fin 3) => alternating 5 v binary64.zero r)
      (alternating 5 binary64.one binary64.zero) fun _ => .fin binary64.one) fun y => -2000 ≤ y ∧ y ≤ 0) ∧
    IsNum (floatMixedGradient roundedLib (fun r : Fin (2 * 5) => r.1 / 2)
      (fun r => if r.1 < 4 then (0 : Fin 2) else 1) (fun r (_ : Fin 3) => alternating 5 v binary64.zero r)
      (alternating 5 binary64.one binary64.zero) (fun _ => .fin binary64.one)
      fun r _ => alternating 5 binary64.one binary64.zero r) fun y => |y| ≤ 60 := by
  have h1 : ∀ r : Fin (2 * 5), IsNum (alternating 5 binary64.one binary64.zero r) fun y => -((1 : ℕ) : ℝ) ≤ y ∧
      y ≤ (1 : ℕ) := by
    intro r
    obtain ⟨y, hy, h⟩ := alternating_choice 5 r
    refine ⟨y, hy, ?_⟩
    rcases h with h | h <;> rw [h] <;> norm_num
  have hone : binary64.one.1 = 1 := rfl
  refine ⟨fun k => ?_, ?_, ?_⟩
  · exact (float_sequence_valid binary64_grid roundedLib _ (alternating_choice 5) _ (fun r j =>
      float_probs_valid roundedLib _ _ r fun s _ => alternating_ne_nan 5 _ _ s) (by norm_num) (by norm_num)
      (by norm_num) k).2
  · obtain ⟨y, hy, h⟩ := float_mixed_log_likelihood binary64_grid roundedLib (fun r : Fin (2 * 5) => r.1 / 2)
      (fun r => if r.1 < 4 then (0 : Fin 2) else 1) (fun r (_ : Fin 3) => alternating 5 v binary64.zero r)
      (alternating 5 binary64.one binary64.zero) (fun _ => .fin binary64.one) 1 (by norm_num) (by norm_num)
      (by norm_num) (by norm_num) (by norm_num) (fun r _ => alternating_ne_nan 5 _ _ r) (alternating_choice 5)
      (fun r => ⟨_, rfl, by rw [hone]; norm_num⟩)
    refine ⟨y, hy, ?_, h.2⟩
    have := h.1
    push_cast at this
    linarith
  · obtain ⟨y, hy, h⟩ := float_mixed_gradient binary64_grid binary64_accurate (by norm_num) (by
        rw [show (-1074 : ℤ) = -1075 + 1 by norm_num, Binary64.zpow_split]
        norm_num) roundedLib (fun r : Fin (2 * 5) => r.1 / 2)
      (fun r => if r.1 < 4 then (0 : Fin 2) else 1) (fun r (_ : Fin 3) => alternating 5 v binary64.zero r)
      (alternating 5 binary64.one binary64.zero) (fun _ => .fin binary64.one)
      (fun r _ => alternating 5 binary64.one binary64.zero r) 1 1 (by norm_num) (by norm_num)
      (by norm_num) (by norm_num) (by norm_num) (by norm_num) (fun r _ => alternating_ne_nan 5 _ _ r)
      (alternating_choice 5) (fun r => ⟨_, rfl, by rw [hone]; norm_num⟩) (fun r _ => h1 r)
    refine ⟨y, hy, h.trans ?_⟩
    norm_num

end Pylogit
