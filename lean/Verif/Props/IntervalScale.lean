import Verif.Props.Intervals

/-!
# C127: intervals follow changes of scale
-/

namespace Pylogit

open Spec

noncomputable section

variable {P : Type}

/-! ## Percentiles of transformed samples -/

private lemma npSort_map_mono {g : ℝ → ℝ} (hg : Monotone g) (xs : List ℝ) : npSort (xs.map g) = (npSort xs).map g := by
  refine List.Perm.eq_of_pairwise (le := (· ≤ ·)) (fun a b _ _ => le_antisymm) (npSort_sorted _) ?_ ?_
  · rw [List.pairwise_map]
    exact (npSort_sorted xs).imp fun h => hg h
  · exact (npSort_perm _).trans ((npSort_perm xs).map _).symm

private lemma npSort_map_anti {g : ℝ → ℝ} (hg : Antitone g) (xs : List ℝ) :
    npSort (xs.map g) = ((npSort xs).map g).reverse := by
  refine List.Perm.eq_of_pairwise (le := (· ≤ ·)) (fun a b _ _ => le_antisymm) (npSort_sorted _) ?_ ?_
  · rw [List.pairwise_reverse, List.pairwise_map]
    exact (npSort_sorted xs).imp fun h => hg h
  · exact ((npSort_perm _).trans ((npSort_perm xs).map _).symm).trans (List.reverse_perm _).symm

private lemma pick_map (g : ℝ → ℝ) (o : Option ℝ) :
    (match o.map g with
      | some x => Except.ok x
      | none => Except.error Err.indexError) =
    (match o with
      | some x => Except.ok x
      | none => Except.error Err.indexError : Except Err ℝ).map g := by
  cases o <;> rfl

private lemma npPercentile_exists (i : Interp) {xs : List ℝ} (hx : xs ≠ []) {q : ℝ} (h0 : 0 ≤ q) (h1 : q ≤ 100) :
    ∃ x, npPercentile i xs q = .ok x := by
  unfold npPercentile
  rw [if_neg (by rintro (h | h) <;> linarith)]
  have hS : (npSort xs).length = xs.length := (npSort_perm xs).length_eq
  have hl : 0 < xs.length := List.length_pos_iff.2 hx
  have hn : ((xs.length - 1 : ℕ) : ℝ) = (xs.length : ℝ) - 1 := by rw [Nat.cast_sub hl]; simp
  rw [← hn]
  have b : q / 100 * ((xs.length - 1 : ℕ) : ℝ) ≤ ((xs.length - 1 : ℕ) : ℝ) := by
    have : (0 : ℝ) ≤ ((xs.length - 1 : ℕ) : ℝ) := Nat.cast_nonneg _
    nlinarith
  have key : ∀ a ≤ xs.length - 1, ∃ x, (match (npSort xs)[a]? with
      | some x => Except.ok x
      | none => Except.error Err.indexError : Except Err ℝ) = .ok x := by
    intro a ha
    rw [List.getElem?_eq_getElem (by omega)]
    exact ⟨_, rfl⟩
  cases i
  · exact key _ (Nat.floor_le_of_le b)
  · exact key _ (Nat.ceil_le.2 b)

private lemma npPercentile_nil (i : Interp) {q : ℝ} (h0 : 0 ≤ q) (h1 : q ≤ 100) :
    npPercentile i [] q = .error .indexError := by
  unfold npPercentile
  rw [if_neg (by rintro (h | h) <;> linarith)]
  simp [npSort]

private lemma npPercentile_mono {g : ℝ → ℝ} (hg : Monotone g) (i : Interp) (xs : List ℝ) (q : ℝ) :
    npPercentile i (xs.map g) q = (npPercentile i xs q).map g := by
  unfold npPercentile
  rw [npSort_map_mono hg, List.length_map]
  split
  · rfl
  · simp only [List.getElem?_map]
    exact pick_map _ _

private lemma floor_compl {n : ℕ} {x : ℝ} (h0 : 0 ≤ x) (h1 : x ≤ n) : ⌊(n : ℝ) - x⌋₊ = n - ⌈x⌉₊ := by
  have hc : ⌈x⌉₊ ≤ n := Nat.ceil_le.2 h1
  rw [Nat.floor_eq_iff (by linarith), Nat.cast_sub hc]
  have h2 := Nat.le_ceil x
  have h3 := Nat.ceil_lt_add_one h0
  constructor <;> linarith

private lemma ceil_compl {n : ℕ} {x : ℝ} (h0 : 0 ≤ x) (h1 : x ≤ n) : ⌈(n : ℝ) - x⌉₊ = n - ⌊x⌋₊ := by
  have := floor_compl (n := n) (x := n - x) (by linarith) (by linarith)
  rw [sub_sub_cancel] at this
  have hc : ⌈(n : ℝ) - x⌉₊ ≤ n := Nat.ceil_le.2 (by linarith)
  omega

private def other : Interp → Interp
  | .lower => .higher
  | .higher => .lower

private lemma npPercentile_anti {g : ℝ → ℝ} (hg : Antitone g) (i : Interp) (xs : List ℝ) (q : ℝ) :
    npPercentile i (xs.map g) (100 - q) = (npPercentile (other i) xs q).map g := by
  unfold npPercentile
  rw [npSort_map_anti hg, List.length_map]
  have e : (100 - q < 0 ∨ 100 < 100 - q) ↔ (q < 0 ∨ 100 < q) := by
    constructor <;> rintro (h | h) <;> first | (left; linarith) | (right; linarith)
  simp only [e]
  split
  · rfl
  rename_i hq
  push Not at hq
  rcases Nat.eq_zero_or_pos xs.length with h0 | h0
  · rw [List.length_eq_zero_iff.1 h0]
    cases i <;> simp [npSort, other, Except.map]
  have hn : ((xs.length - 1 : ℕ) : ℝ) = (xs.length : ℝ) - 1 := by rw [Nat.cast_sub h0]; simp
  have hx0 : 0 ≤ q / 100 * ((xs.length - 1 : ℕ) : ℝ) := mul_nonneg (by linarith) (Nat.cast_nonneg _)
  have hx1 : q / 100 * ((xs.length - 1 : ℕ) : ℝ) ≤ ((xs.length - 1 : ℕ) : ℝ) := by
    have : (0 : ℝ) ≤ ((xs.length - 1 : ℕ) : ℝ) := Nat.cast_nonneg _
    nlinarith
  have hpos : (100 - q) / 100 * ((xs.length - 1 : ℕ) : ℝ) =
      ((xs.length - 1 : ℕ) : ℝ) - q / 100 * ((xs.length - 1 : ℕ) : ℝ) := by ring
  have hS : (npSort xs).length = xs.length := (npSort_perm xs).length_eq
  rw [← hn]
  have key : ∀ a b : ℕ, b ≤ xs.length - 1 → a = xs.length - 1 - b →
      (match (((npSort xs).map g).reverse)[a]? with
        | some x => Except.ok x
        | none => Except.error Err.indexError) =
      (match (npSort xs)[b]? with
        | some x => Except.ok x
        | none => Except.error Err.indexError : Except Err ℝ).map g := by
    intro a b hb ha
    have hbl : b < (npSort xs).length := by omega
    rw [List.getElem?_reverse (by rw [List.length_map]; omega), List.length_map, hS,
      show xs.length - 1 - a = b by omega, List.getElem?_map, List.getElem?_eq_getElem hbl]
    rfl
  cases i
  · exact key _ _ (Nat.ceil_le.2 hx1) (by dsimp only; rw [hpos]; exact floor_compl hx0 hx1)
  · exact key _ _ (Nat.floor_le_of_le hx1) (by dsimp only; rw [hpos]; exact ceil_compl hx0 hx1)

/-! ## The properties -/

/-- **C127** (percentile intervals).  For a parameter that is an increasing function of another one, replicate by replicate,
the percentile interval is the function of the interval of the other one; the same errors are raised. -/
theorem percentile_interval_increasing {g : ℝ → ℝ} (hg : Monotone g) (reps reps' : P → List ℝ) (p : P)
    (h : reps' p = (reps p).map g) (conf : PyVal ℝ) :
    calcPercentileInterval reps' conf p = (calcPercentileInterval reps conf p).map fun ci => (g ci.1, g ci.2) := by
  unfold calcPercentileInterval
  simp only [h, npPercentile_mono hg, bind, Except.bind]
  cases checkConfPercentage conf with
  | error => rfl
  | ok c =>
    dsimp only
    cases npPercentile .lower (reps p) (alphaFromConf c / 2) with
    | error => rfl
    | ok lo =>
      simp only [Except.map]
      cases npPercentile .higher (reps p) (100 - alphaFromConf c / 2) <;> rfl

/-- **C127** (percentile intervals).  For a decreasing function the endpoints change places. -/
theorem percentile_interval_decreasing {g : ℝ → ℝ} (hg : Antitone g) (reps reps' : P → List ℝ) (p : P)
    (h : reps' p = (reps p).map g) (conf : PyVal ℝ) :
    calcPercentileInterval reps' conf p = (calcPercentileInterval reps conf p).map fun ci => (g ci.2, g ci.1) := by
  unfold calcPercentileInterval
  simp only [h, bind, Except.bind]
  cases hconf : checkConfPercentage conf with
  | error => rfl
  | ok c =>
    dsimp only
    have hc : 0 ≤ alphaFromConf c / 2 ∧ alphaFromConf c / 2 ≤ 100 := by
      cases conf <;> simp only [checkConfPercentage, reduceCtorEq] at hconf
      split at hconf
      · cases hconf
        rename_i hc
        unfold alphaFromConf
        constructor <;> linarith [hc.1, hc.2]
      · cases hconf
    have e1 := npPercentile_anti hg .higher (reps p) (alphaFromConf c / 2)
    have e2 := npPercentile_anti hg .lower (reps p) (100 - alphaFromConf c / 2)
    rw [sub_sub_cancel] at e2
    rw [e1, e2]
    by_cases hne : reps p = []
    · rw [hne]
      simp only [other]
      rw [npPercentile_nil _ (by linarith) (by linarith), npPercentile_nil _ hc.1 hc.2]
      rfl
    · obtain ⟨x, hx⟩ := npPercentile_exists .lower hne hc.1 hc.2
      obtain ⟨y, hy⟩ := npPercentile_exists .higher (q := 100 - alphaFromConf c / 2) hne (by linarith) (by linarith)
      simp only [other, hx, hy, Except.map]

/-- The estimate and all replicates of parameter `p` are `k` times those of the other arrays. -/
def RescaledColumn (k : ℝ) (reps reps' jack jack' : P → List ℝ) (mle mle' : P → ℝ) (p : P) : Prop :=
  reps' p = (reps p).map (fun x => k * x) ∧ jack' p = (jack p).map (fun x => k * x) ∧ mle' p = k * mle p

private lemma share_scale {k : ℝ} (hk : 0 < k) (xs : List ℝ) (m : ℝ) :
    shareBelow (xs.map fun x => k * x) (k * m) = shareBelow xs m := by
  unfold shareBelow
  rw [List.filter_map, List.length_map, List.length_map]
  congr 2
  congr 1
  refine List.filter_congr fun x _ => ?_
  simp [hk]

private lemma share_neg {k : ℝ} (hk : k < 0) (xs : List ℝ) (hne : xs ≠ []) (m : ℝ) (hm : m ∉ xs) :
    shareBelow (xs.map fun x => k * x) (k * m) = 1 - shareBelow xs m := by
  unfold shareBelow
  rw [List.filter_map, List.length_map, List.length_map]
  have hl : (0 : ℝ) < xs.length := by exact_mod_cast List.length_pos_iff.2 hne
  have e : (xs.filter ((fun x => decide (x < k * m)) ∘ fun x => k * x)) = xs.filter fun x => ¬ x < m := by
    refine List.filter_congr fun x hx => ?_
    have hxm : x ≠ m := fun e => hm (e ▸ hx)
    have : k * x < k * m ↔ ¬ x < m := by
      rw [mul_lt_mul_left_of_neg hk, not_lt]
      exact ⟨le_of_lt, fun h => lt_of_le_of_ne h hxm.symm⟩
    simp only [Function.comp, this]
  rw [e]
  have h2 := List.length_eq_countP_add_countP (fun x => decide (x < m)) (l := xs)
  rw [List.countP_eq_length_filter, List.countP_eq_length_filter] at h2
  have h3 : (xs.filter fun x => ¬ x < m).length = (xs.filter fun a => ¬ decide (a < m) = true).length := by
    congr 1
    refine List.filter_congr fun x _ => ?_
    simp
  rw [h3, eq_sub_iff_add_eq, ← add_div, div_eq_one_iff_eq hl.ne']
  exact_mod_cast (by omega)

private lemma accel_neg_scale {k : ℝ} (hk : k < 0) (jack : List ℝ) :
    accelerationBca (jack.map fun x => k * x) = -accelerationBca jack := by
  have e : jack.map (fun x => k * x) = (jack.map fun x => (-k) * x).map fun x => -x := by
    rw [List.map_map]
    exact List.map_congr_left fun x _ => by simp
  rw [e, acceleration_neg, acceleration_scale jack (by linarith : 0 < -k)]

/-- **C127** (BCa intervals).  If the estimate, the bootstrap and the jackknife replicates of a parameter are multiplied by
a positive number, so is its BCa interval; the same errors are raised. -/
theorem bca_interval_rescaled (ppf cdf : ℝ → ℝ) {k : ℝ} (hk : 0 < k) (reps reps' jack jack' : P → List ℝ)
    (mle mle' : P → ℝ) (p : P) (h : RescaledColumn k reps reps' jack jack' mle mle' p) (conf : PyVal ℝ) :
    calcBcaInterval ppf cdf reps' jack' mle' conf p =
      (calcBcaInterval ppf cdf reps jack mle conf p).map fun ci => (k * ci.1, k * ci.2) := by
  obtain ⟨h1, h2, h3⟩ := h
  have hg : Monotone fun x : ℝ => k * x := fun x y hxy => mul_le_mul_of_nonneg_left hxy hk.le
  unfold calcBcaInterval
  cases checkConfPercentage conf with
  | error => rfl
  | ok c =>
    simp only [bind, Except.bind, percentileTable, biasCorrectionBca, h1, h2, h3, share_scale hk,
      acceleration_scale _ hk, npPercentile_mono hg]
    split
    · rfl
    · cases npPercentile .lower (reps p) _ with
      | error => rfl
      | ok lo =>
        simp only [Except.map]
        cases npPercentile .higher (reps p) _ <;> rfl

private lemma bcaLevel_neg (z b a : ℝ) : bcaLevel normCdf (-z) (-b) (-a) = 100 - bcaLevel normCdf z b a := by
  unfold bcaLevel
  have e : -b + (-b + -z) / (1 - -a * (-b + -z)) = -(b + (b + z) / (1 - a * (b + z))) := by
    rw [show -b + -z = -(b + z) by ring, show 1 - -a * -(b + z) = 1 - a * (b + z) by ring, neg_div]
    ring
  simp only [e, normCdf_neg]
  ring

private lemma bcaLevel_range (z b a : ℝ) : 0 ≤ bcaLevel normCdf z b a ∧ bcaLevel normCdf z b a ≤ 100 := by
  unfold bcaLevel
  have h1 := normCdf_pos (b + (b + z) / (1 - a * (b + z)))
  have h2 := normCdf_lt_one (b + (b + z) / (1 - a * (b + z)))
  constructor
  · positivity
  · linarith

/-- **C127** (BCa intervals).  If they are multiplied by a negative number and no replicate equals the estimate, the
endpoints are multiplied and change places. -/
theorem bca_interval_reflected {ppf : ℝ → ℝ} (hp : IsNormQuantile ppf) {k : ℝ} (hk : k < 0)
    (reps reps' jack jack' : P → List ℝ) (mle mle' : P → ℝ) (p : P)
    (h : RescaledColumn k reps reps' jack jack' mle mle' p) (hties : mle p ∉ reps p) (conf : PyVal ℝ) :
    calcBcaInterval ppf normCdf reps' jack' mle' conf p =
      (calcBcaInterval ppf normCdf reps jack mle conf p).map fun ci => (k * ci.2, k * ci.1) := by
  obtain ⟨h1, h2, h3⟩ := h
  have hg : Antitone fun x : ℝ => k * x := fun x y hxy => mul_le_mul_of_nonpos_left hxy hk.le
  unfold calcBcaInterval
  cases hconf : checkConfPercentage conf with
  | error => rfl
  | ok c =>
    have hc : 0 < c ∧ c < 100 := by
      cases conf <;> simp only [checkConfPercentage, reduceCtorEq] at hconf
      split at hconf
      · cases hconf
        assumption
      · cases hconf
    by_cases hne : reps p = []
    · simp [bind, Except.bind, h1, hne, shareBelow, Except.map]
    have hs := share_neg hk (reps p) hne (mle p) hties
    simp only [bind, Except.bind, percentileTable, biasCorrectionBca, h1, h2, h3, hs, accel_neg_scale hk,
      lowerBcaPercentile, upperBcaPercentile, alphaFromConf]
    have e : (1 - shareBelow (reps p) (mle p) ≤ 0 ∨ 1 ≤ 1 - shareBelow (reps p) (mle p)) ↔
        (shareBelow (reps p) (mle p) ≤ 0 ∨ 1 ≤ shareBelow (reps p) (mle p)) := by
      constructor <;> rintro (h | h) <;> first | (left; linarith) | (right; linarith)
    simp only [e]
    split
    · rfl
    rename_i hsh
    push Not at hsh
    have q1 : 0 < (100 - c) / (100 * 2) := by linarith [hc.2]
    have q2 : (100 - c) / (100 * 2) < 1 := by linarith [hc.1]
    have z1 := quantile_compl hp q1 q2
    have z2 := quantile_compl hp hsh.1 hsh.2
    set zl := ppf ((100 - c) / (100 * 2)) with hzl
    set b := ppf (shareBelow (reps p) (mle p)) with hb
    set ac := accelerationBca (jack p) with hac
    rw [z1, z2]
    have l1 := bcaLevel_neg (-zl) b ac
    rw [neg_neg] at l1
    rw [l1, bcaLevel_neg zl b ac, npPercentile_anti hg .lower, npPercentile_anti hg .higher]
    have r1 := bcaLevel_range zl b ac
    have r2 := bcaLevel_range (-zl) b ac
    obtain ⟨x, hx⟩ := npPercentile_exists .lower hne r1.1 r1.2
    obtain ⟨y, hy⟩ := npPercentile_exists .higher hne r2.1 r2.2
    simp only [other, hx, hy, Except.map]

/-! ## Concrete cases -/

/-- Replicates of odds ratios from replicates of coefficients. -/
example (conf : PyVal ℝ) : calcPercentileInterval (fun _ : Unit => [Real.exp 3, Real.exp 1, Real.exp 2]) conf () =
    (calcPercentileInterval (fun _ : Unit => [3, 1, 2]) conf ()).map fun ci => (Real.exp ci.1, Real.exp ci.2) :=
  percentile_interval_increasing Real.exp_monotone _ _ () rfl conf

example (conf : PyVal ℝ) : calcPercentileInterval (fun _ : Unit => [-3, -1, -2]) conf () =
    (calcPercentileInterval (fun _ : Unit => [3, 1, 2]) conf ()).map fun ci => (-ci.2, -ci.1) :=
  percentile_interval_decreasing (g := fun x => -x) (fun _ _ h => neg_le_neg h) _ _ () (by simp) conf

example (ppf cdf : ℝ → ℝ) (conf : PyVal ℝ) :
    calcBcaInterval ppf cdf (fun _ : Unit => [6, 2, 4]) (fun _ => [2, 4, 5]) (fun _ => 5) conf () =
    (calcBcaInterval ppf cdf (fun _ : Unit => [3, 1, 2]) (fun _ => [1, 2, 2.5]) (fun _ => 2.5) conf ()).map
      fun ci => (2 * ci.1, 2 * ci.2) :=
  bca_interval_rescaled ppf cdf two_pos _ _ _ _ _ _ () ⟨by norm_num, by norm_num, by norm_num⟩ conf

example {ppf : ℝ → ℝ} (hp : IsNormQuantile ppf) (conf : PyVal ℝ) :
    calcBcaInterval ppf normCdf (fun _ : Unit => [-6, -2, -4]) (fun _ => [-2, -4, -5]) (fun _ => -5) conf () =
    (calcBcaInterval ppf normCdf (fun _ : Unit => [3, 1, 2]) (fun _ => [1, 2, 2.5]) (fun _ => 2.5) conf ()).map
      fun ci => (-2 * ci.2, -2 * ci.1) :=
  bca_interval_reflected hp (by norm_num) _ _ _ _ _ _ () ⟨by norm_num, by norm_num, by norm_num⟩ (by norm_num) conf

/-- **C127** (what is missing).  If a replicate equals the estimate, the BCa interval of the negated parameter need not be
the negated interval, because the code counts the replicates strictly below the estimate. -/
theorem bca_interval_ties {ppf : ℝ → ℝ} (hp : IsNormQuantile ppf) :
    RescaledColumn (-1) (fun _ : Unit => [1, 2, 3]) (fun _ => [-1, -2, -3]) (fun _ => [2, 2]) (fun _ => [-2, -2])
      (fun _ => 2) (fun _ => -2) () ∧
    calcBcaInterval ppf normCdf (fun _ : Unit => [1, 2, 3]) (fun _ => [2, 2]) (fun _ => 2) (.num (100 / 3)) () = .ok (1, 2) ∧
    calcBcaInterval ppf normCdf (fun _ : Unit => [-1, -2, -3]) (fun _ => [-2, -2]) (fun _ => -2) (.num (100 / 3)) () =
      .ok (-3, -2) := by
  have s1 : shareBelow [1, 2, 3] 2 = 1 / 3 := by norm_num [shareBelow]
  have s2 : shareBelow [-1, -2, -3] (-2) = 1 / 3 := by norm_num [shareBelow]
  have a1 : accelerationBca [2, 2] = 0 := by norm_num [accelerationBca]
  have a2 : accelerationBca [-2, -2] = 0 := by norm_num [accelerationBca]
  have z : ppf (2 / 3) = -ppf (1 / 3) := by
    have := quantile_compl hp (q := 1 / 3) (by norm_num) (by norm_num)
    rwa [show (1 : ℝ) - 1 / 3 = 2 / 3 by norm_num] at this
  have b0 : normCdf (ppf (1 / 3)) = 1 / 3 := hp _ (by norm_num) (by norm_num)
  have bneg : ppf (1 / 3) < 0 := by
    rw [← normCdf_strictMono.lt_iff_lt, b0, normCdf_zero]; norm_num
  have hl : normCdf (ppf (1 / 3) + (ppf (1 / 3) + ppf (1 / 3))) < 1 / 2 := by
    rw [← normCdf_zero]; exact normCdf_strictMono (by linarith)
  have h0 := normCdf_pos (ppf (1 / 3) + (ppf (1 / 3) + ppf (1 / 3)))
  have so1 : npSort [(1 : ℝ), 2, 3] = [1, 2, 3] := npSort_of_sorted (by norm_num)
  have so2 : npSort [(-1 : ℝ), -2, -3] = [-3, -2, -1] := by
    refine List.Perm.eq_of_pairwise (le := (· ≤ ·)) (fun a b _ _ => le_antisymm) (npSort_sorted _) (by norm_num) ?_
    exact (npSort_perm _).trans (List.reverse_perm [(-3 : ℝ), -2, -1]).symm.symm
  have q1 : ∀ (x y w : ℝ) (xs : List ℝ), npSort xs = [x, y, w] → xs.length = 3 →
      npPercentile .lower xs (normCdf (ppf (1 / 3) + (ppf (1 / 3) + ppf (1 / 3))) * 100) = .ok x := by
    intro x y w xs hxs hlen
    have hf : ⌊normCdf (ppf (1 / 3) + (ppf (1 / 3) + ppf (1 / 3))) * 100 / 100 * ((3 : ℕ) - 1 : ℝ)⌋₊ = 0 := by
      rw [Nat.floor_eq_zero]
      push_cast
      linarith
    unfold npPercentile
    rw [if_neg (by rintro (h | h) <;> linarith), hxs, hlen]
    simp only [hf]
    rfl
  have q2 : ∀ (x y w : ℝ) (xs : List ℝ), npSort xs = [x, y, w] → xs.length = 3 →
      npPercentile .higher xs (1 / 3 * 100) = .ok y := by
    intro x y w xs hxs hlen
    have hf : ⌈(1 / 3 * 100 / 100 * ((3 : ℕ) - 1) : ℝ)⌉₊ = 1 := by
      rw [Nat.ceil_eq_iff (by norm_num)]
      norm_num
    unfold npPercentile
    rw [if_neg (by norm_num), hxs, hlen]
    simp only [hf]
    rfl
  have l1 : lowerBcaPercentile ppf normCdf (alphaFromConf (100 / 3)) (ppf (1 / 3)) 0 =
      normCdf (ppf (1 / 3) + (ppf (1 / 3) + ppf (1 / 3))) * 100 := by
    unfold lowerBcaPercentile bcaLevel alphaFromConf
    norm_num
  have l2 : upperBcaPercentile ppf normCdf (alphaFromConf (100 / 3)) (ppf (1 / 3)) 0 = 1 / 3 * 100 := by
    unfold upperBcaPercentile bcaLevel alphaFromConf
    rw [show (1 : ℝ) - (100 - 100 / 3) / (100 * 2) = 2 / 3 by norm_num, z]
    simp only [add_neg_cancel, zero_div, add_zero, b0]
  have hconf : checkConfPercentage (.num (100 / 3)) = .ok (100 / 3) := by
    norm_num [checkConfPercentage]
  refine ⟨⟨by norm_num, by norm_num, by norm_num⟩, ?_, ?_⟩
  · unfold calcBcaInterval
    simp only [hconf, bind, Except.bind, s1, a1, biasCorrectionBca, l1, l2, percentileTable]
    rw [if_neg (by norm_num), q1 1 2 3 _ so1 rfl, q2 1 2 3 _ so1 rfl]
  · unfold calcBcaInterval
    simp only [hconf, bind, Except.bind, s2, a2, biasCorrectionBca, l1, l2, percentileTable]
    rw [if_neg (by norm_num), q1 (-3) (-2) (-1) _ so2 rfl, q2 (-3) (-2) (-1) _ so2 rfl]

example : ∃ ppf, IsNormQuantile ppf := exists_normQuantile

end

end Pylogit
