import Mathlib.Tactic
import Mathlib.Algebra.Order.Archimedean.Basic
import Verif.Model.Intervals
import Verif.Lemmas.Mappings
import Verif.Lemmas.Normal

/-!
# C62-C64: percentile and BCa intervals
-/

set_option linter.unusedSectionVars false

namespace Pylogit

open Spec

variable {P : Type}

/-! ## C64 -/

/-- **C64**.  A confidence percentage is accepted exactly when it is a number strictly between 0 and
100. -/
theorem conf_percentage_accepted (v : PyVal ℝ) :
    (∃ c, checkConfPercentage v = .ok c) ↔ ∃ c : ℝ, v = .num c ∧ 0 < c ∧ c < 100 := by
  constructor
  · rintro ⟨c, h⟩
    cases v with
    | num x =>
      simp only [checkConfPercentage] at h
      split_ifs at h with hx
      exact ⟨x, rfl, hx⟩
    | str s => simp [checkConfPercentage] at h
    | list l => simp [checkConfPercentage] at h
    | other => simp [checkConfPercentage] at h
  · rintro ⟨c, rfl, hc⟩
    exact ⟨c, by simp [checkConfPercentage, hc]⟩

/-- **C64**.  The value accepted is the value passed, refusals are `ValueError`s, and the percentile
levels derived from an accepted value are strictly inside (0, 50) and (50, 100). -/
theorem conf_percentage_levels (v : PyVal ℝ) :
    (∀ c, checkConfPercentage v = .ok c → v = .num c ∧ 0 < alphaFromConf c / 2 ∧
      alphaFromConf c / 2 < 50 ∧ 50 < 100 - alphaFromConf c / 2 ∧
      100 - alphaFromConf c / 2 < 100) ∧
    (∀ e, checkConfPercentage v = .error e → e = .valueError) := by
  constructor
  · intro c h
    cases v with
    | num x =>
      simp only [checkConfPercentage] at h
      split_ifs at h with hx
      simp only [Except.ok.injEq] at h
      subst h
      unfold alphaFromConf
      exact ⟨rfl, by linarith [hx.1, hx.2], by linarith [hx.1, hx.2], by linarith [hx.1, hx.2],
        by linarith [hx.1, hx.2]⟩
    | str s => simp [checkConfPercentage] at h
    | list l => simp [checkConfPercentage] at h
    | other => simp [checkConfPercentage] at h
  · intro e h
    cases v with
    | num x =>
      simp only [checkConfPercentage] at h
      split_ifs at h with hx
      simp only [Except.error.injEq] at h
      exact h.symm
    | str s => simp only [checkConfPercentage, Except.error.injEq] at h; exact h.symm
    | list l => simp only [checkConfPercentage, Except.error.injEq] at h; exact h.symm
    | other => simp only [checkConfPercentage, Except.error.injEq] at h; exact h.symm

/-- Both interval functions refuse a bad percentage before anything else. -/
theorem interval_refuses_bad_percentage (ppf cdf : ℝ → ℝ) (reps jack : P → List ℝ) (mle : P → ℝ)
    (v : PyVal ℝ) (p : P) (h : ¬ ∃ c : ℝ, v = .num c ∧ 0 < c ∧ c < 100) :
    calcPercentileInterval reps v p = .error .valueError ∧
    calcBcaInterval ppf cdf reps jack mle v p = .error .valueError := by
  have hc : checkConfPercentage v = .error .valueError := by
    cases hv : checkConfPercentage v with
    | ok c => exact absurd ((conf_percentage_accepted v).1 ⟨c, hv⟩) h
    | error e => rw [(conf_percentage_levels v).2 e hv]
  constructor
  · simp only [calcPercentileInterval, hc, bind, Except.bind]
  · simp only [calcBcaInterval, hc, bind, Except.bind]

/-! ## Percentiles -/

private noncomputable def posOf (i : Interp) (n : ℕ) (q : ℝ) : ℕ :=
  match i with
  | .lower => ⌊q / 100 * ((n : ℝ) - 1)⌋₊
  | .higher => ⌈q / 100 * ((n : ℝ) - 1)⌉₊

private lemma posOf_lt (i : Interp) {n : ℕ} (hn : 0 < n) {q : ℝ} (h0 : 0 ≤ q) (h1 : q ≤ 100) :
    posOf i n q < n := by
  have hn1 : (1 : ℝ) ≤ n := by exact_mod_cast hn
  have hle : q / 100 * ((n : ℝ) - 1) ≤ ((n - 1 : ℕ) : ℝ) := by
    rw [Nat.cast_sub hn]
    push_cast
    nlinarith
  have h : posOf i n q ≤ n - 1 := by
    cases i with
    | lower => exact Nat.floor_le_of_le hle
    | higher => exact Nat.ceil_le.2 hle
  omega

private lemma length_npSort (xs : List ℝ) : (npSort xs).length = xs.length := (npSort_perm xs).length_eq

private lemma npPercentile_ok (i : Interp) {xs : List ℝ} (hx : xs ≠ []) {q : ℝ} (h0 : 0 ≤ q)
    (h1 : q ≤ 100) :
    ∃ h : posOf i xs.length q < (npSort xs).length,
      npPercentile i xs q = .ok ((npSort xs)[posOf i xs.length q]) := by
  have hn : 0 < xs.length := List.length_pos_iff.2 hx
  have h : posOf i xs.length q < (npSort xs).length := by
    rw [length_npSort]; exact posOf_lt i hn h0 h1
  refine ⟨h, ?_⟩
  unfold npPercentile
  rw [if_neg (by rintro (h | h) <;> linarith)]
  have key : (match (npSort xs)[posOf i xs.length q]? with
      | some x => Except.ok x
      | none => Except.error Err.indexError) = .ok ((npSort xs)[posOf i xs.length q]) := by
    rw [List.getElem?_eq_getElem h]
  cases i <;> exact key

private lemma sorted_get_le (xs : List ℝ) {a b : ℕ} (hab : a ≤ b) (hb : b < (npSort xs).length) :
    (npSort xs)[a]'(by omega) ≤ (npSort xs)[b] := by
  rcases eq_or_lt_of_le hab with rfl | hlt
  · exact le_rfl
  · exact List.pairwise_iff_getElem.1 (npSort_sorted xs) a b (by omega) hb hlt

private lemma sorted_get_mem (xs : List ℝ) {a : ℕ} (ha : a < (npSort xs).length) :
    (npSort xs)[a] ∈ xs := mem_npSort.1 (List.getElem_mem ha)

private lemma posOf_mono (i : Interp) {n : ℕ} (hn : 0 < n) {q q' : ℝ} (h : q ≤ q') :
    posOf i n q ≤ posOf i n q' := by
  have hn1 : (1 : ℝ) ≤ n := by exact_mod_cast hn
  have hle : q / 100 * ((n : ℝ) - 1) ≤ q' / 100 * ((n : ℝ) - 1) := by
    apply mul_le_mul_of_nonneg_right _ (by linarith)
    linarith
  cases i with
  | lower => exact Nat.floor_mono hle
  | higher => exact Nat.ceil_mono hle

private lemma posOf_lower_le_higher {n : ℕ} (hn : 0 < n) {q q' : ℝ} (h : q ≤ q') :
    posOf .lower n q ≤ posOf .higher n q' := by
  refine (posOf_mono .lower hn h).trans ?_
  exact Nat.floor_le_ceil _

private lemma percentileInterval_ok (reps : P → List ℝ) (p : P) (hne : reps p ≠ []) {c : ℝ}
    (h0 : 0 < c) (h1 : c < 100) :
    ∃ (hl : posOf .lower (reps p).length ((100 - c) / 2) < (npSort (reps p)).length)
      (hu : posOf .higher (reps p).length (100 - (100 - c) / 2) < (npSort (reps p)).length),
      calcPercentileInterval reps (.num c) p =
        .ok ((npSort (reps p))[posOf .lower (reps p).length ((100 - c) / 2)],
          (npSort (reps p))[posOf .higher (reps p).length (100 - (100 - c) / 2)]) := by
  obtain ⟨hl, e1⟩ := npPercentile_ok .lower hne (q := (100 - c) / 2) (by linarith) (by linarith)
  obtain ⟨hu, e2⟩ := npPercentile_ok .higher hne (q := 100 - (100 - c) / 2) (by linarith)
    (by linarith)
  refine ⟨hl, hu, ?_⟩
  have hc : checkConfPercentage (.num c) = .ok c := by simp [checkConfPercentage, h0, h1]
  simp only [calcPercentileInterval, hc, bind, Except.bind, alphaFromConf, e1, e2]

/-! ## C62 -/

/-- **C62**.  For at least one replicate and a percentage in (0, 100), the interval of each parameter has two
observed replicates of that parameter as endpoints, in order, and at least the requested share of
the replicates lies in it. -/
theorem percentile_interval (reps : P → List ℝ) (p : P) (hne : reps p ≠ []) {c : ℝ} (h0 : 0 < c)
    (h1 : c < 100) :
    open Classical in
    ∃ lo hi, calcPercentileInterval reps (.num c) p = .ok (lo, hi) ∧
      lo ∈ reps p ∧ hi ∈ reps p ∧ lo ≤ hi ∧
      c / 100 * (reps p).length ≤ ((reps p).countP fun x => lo ≤ x ∧ x ≤ hi : ℕ) := by
  classical
  obtain ⟨hl, hu, e⟩ := percentileInterval_ok reps p hne h0 h1
  have hn : 0 < (reps p).length := List.length_pos_iff.2 hne
  have hpos := posOf_lower_le_higher hn (q := (100 - c) / 2) (q' := 100 - (100 - c) / 2)
    (by linarith)
  refine ⟨_, _, e, sorted_get_mem _ hl, sorted_get_mem _ hu, sorted_get_le _ hpos hu, ?_⟩
  set S := npSort (reps p) with hS
  set l := posOf .lower (reps p).length ((100 - c) / 2) with hldef
  set u := posOf .higher (reps p).length (100 - (100 - c) / 2) with hudef
  rw [← (npSort_perm (reps p)).countP_eq]
  have hsub : ((S.drop l).take (u - l + 1)).Sublist S :=
    (List.take_sublist _ _).trans (List.drop_sublist _ _)
  have hall : ∀ x ∈ (S.drop l).take (u - l + 1), decide (S[l] ≤ x ∧ x ≤ S[u]) = true := by
    intro x hx
    obtain ⟨i, hi, rfl⟩ := List.mem_iff_getElem.1 hx
    rw [List.length_take, List.length_drop] at hi
    rw [List.getElem_take, List.getElem_drop]
    exact decide_eq_true ⟨sorted_get_le _ (by omega) (by omega), sorted_get_le _ (by omega) hu⟩
  have hcount : u - l + 1 ≤ S.countP fun x => decide (S[l] ≤ x ∧ x ≤ S[u]) := by
    calc u - l + 1 = ((S.drop l).take (u - l + 1)).length := by
          rw [List.length_take, List.length_drop]; omega
      _ = ((S.drop l).take (u - l + 1)).countP fun x => decide (S[l] ≤ x ∧ x ≤ S[u]) :=
          (List.countP_eq_length.2 hall).symm
      _ ≤ _ := hsub.countP_le
  have hn1 : (1 : ℝ) ≤ (reps p).length := by exact_mod_cast hn
  have hlow : (l : ℝ) ≤ (100 - c) / 2 / 100 * ((reps p).length - 1) := by
    apply Nat.floor_le
    apply mul_nonneg <;> linarith
  have hupp : (100 - (100 - c) / 2) / 100 * ((reps p).length - 1 : ℝ) ≤ u := Nat.le_ceil _
  have hcast : ((u - l + 1 : ℕ) : ℝ) = (u : ℝ) - l + 1 := by
    rw [Nat.cast_add, Nat.cast_sub hpos]; simp
  calc c / 100 * ((reps p).length : ℝ) ≤ (u : ℝ) - l + 1 := by nlinarith
    _ = ((u - l + 1 : ℕ) : ℝ) := hcast.symm
    _ ≤ _ := by exact_mod_cast hcount

/-- **C62**, nesting: a larger percentage gives an interval that contains the smaller one's. -/
theorem percentile_interval_nested (reps : P → List ℝ) (p : P) (hne : reps p ≠ []) {c d : ℝ}
    (h0 : 0 < c) (hcd : c ≤ d) (h1 : d < 100) :
    ∃ lo hi lo' hi', calcPercentileInterval reps (.num c) p = .ok (lo, hi) ∧
      calcPercentileInterval reps (.num d) p = .ok (lo', hi') ∧ lo' ≤ lo ∧ hi ≤ hi' := by
  obtain ⟨hl, hu, e⟩ := percentileInterval_ok reps p hne h0 (hcd.trans_lt h1)
  obtain ⟨hl', hu', e'⟩ := percentileInterval_ok reps p hne (h0.trans_le hcd) h1
  have hn : 0 < (reps p).length := List.length_pos_iff.2 hne
  exact ⟨_, _, _, _, e, e', sorted_get_le _ (posOf_mono _ hn (by linarith)) hl,
    sorted_get_le _ (posOf_mono _ hn (by linarith)) hu'⟩

/-- C62, edge: without replicates there is no interval (`np.percentile` fails). -/
theorem percentile_interval_empty (reps : P → List ℝ) (p : P) (hne : reps p = []) {c : ℝ}
    (h0 : 0 < c) (h1 : c < 100) :
    calcPercentileInterval reps (.num c) p = .error .indexError := by
  have hc : checkConfPercentage (.num c) = .ok c := by simp [checkConfPercentage, h0, h1]
  have : npPercentile .lower (reps p) ((100 - c) / 2) = .error .indexError := by
    unfold npPercentile
    rw [if_neg (by rintro (h | h) <;> linarith), hne]
    simp [npSort]
  simp only [calcPercentileInterval, hc, bind, Except.bind, alphaFromConf, this]

private lemma npSort_map_neg (xs : List ℝ) :
    npSort (xs.map fun x => -x) = ((npSort xs).map fun x => -x).reverse := by
  refine List.Perm.eq_of_pairwise (le := (· ≤ ·)) (fun a b _ _ => le_antisymm) (npSort_sorted _) ?_ ?_
  · rw [List.pairwise_reverse, List.pairwise_map]
    exact (npSort_sorted xs).imp fun h => by linarith
  · refine (npSort_perm _).trans ?_
    refine List.Perm.trans ?_ (List.reverse_perm _).symm
    exact ((npSort_perm xs).map _).symm

private lemma posOf_compl {n : ℕ} (hn : 0 < n) {q : ℝ} (h0 : 0 ≤ q) (h1 : q ≤ 100) :
    posOf .higher n (100 - q) = n - 1 - posOf .lower n q := by
  have hn1 : (1 : ℝ) ≤ n := by exact_mod_cast hn
  have hx0 : 0 ≤ q / 100 * ((n : ℝ) - 1) := by
    apply mul_nonneg <;> linarith
  have hlt := posOf_lt .lower hn h0 h1
  have hf : posOf .lower n q = ⌊q / 100 * ((n : ℝ) - 1)⌋₊ := rfl
  have h2 := Nat.floor_le hx0
  have h3 := Nat.lt_floor_add_one (q / 100 * ((n : ℝ) - 1))
  rw [← hf] at h2 h3
  have hcast : ((n - 1 - posOf .lower n q : ℕ) : ℝ) = (n : ℝ) - 1 - posOf .lower n q := by
    rw [Nat.cast_sub (by omega), Nat.cast_sub hn]; simp
  change ⌈(100 - q) / 100 * ((n : ℝ) - 1)⌉₊ = _
  have he : (100 - q) / 100 * ((n : ℝ) - 1) = (n : ℝ) - 1 - q / 100 * ((n : ℝ) - 1) := by ring
  rw [he]
  apply le_antisymm
  · apply Nat.ceil_le.2
    rw [hcast]; linarith
  · by_contra hcon
    push Not at hcon
    have h4 : ⌈(n : ℝ) - 1 - q / 100 * ((n : ℝ) - 1)⌉₊ + 1 ≤ n - 1 - posOf .lower n q := hcon
    have h5 : ((⌈(n : ℝ) - 1 - q / 100 * ((n : ℝ) - 1)⌉₊ : ℝ)) + 1 ≤
        (n : ℝ) - 1 - posOf .lower n q := by
      rw [← hcast]; exact_mod_cast h4
    have h6 := Nat.le_ceil ((n : ℝ) - 1 - q / 100 * ((n : ℝ) - 1))
    linarith

/-- **C62**, the tails are treated alike: the interval of the negated replicates is the negated
interval. -/
theorem percentile_interval_neg (reps : P → List ℝ) (p : P) (hne : reps p ≠ []) {c : ℝ}
    (h0 : 0 < c) (h1 : c < 100) :
    ∃ lo hi, calcPercentileInterval reps (.num c) p = .ok (lo, hi) ∧
      calcPercentileInterval (fun q => (reps q).map fun x => -x) (.num c) p = .ok (-hi, -lo) := by
  obtain ⟨hl, hu, e⟩ := percentileInterval_ok reps p hne h0 h1
  have hne' : (fun q => (reps q).map fun x => -x) p ≠ [] := by simpa using hne
  obtain ⟨hl', hu', e'⟩ := percentileInterval_ok (fun q => (reps q).map fun x => -x) p hne' h0 h1
  refine ⟨_, _, e, e'.trans ?_⟩
  have hn : 0 < (reps p).length := List.length_pos_iff.2 hne
  have hlen : ((reps p).map fun x => -x).length = (reps p).length := List.length_map _
  have hc1 := posOf_compl hn (q := (100 - c) / 2) (by linarith) (by linarith)
  have hlt := posOf_lt .lower hn (q := (100 - c) / 2) (by linarith) (by linarith)
  have hS := length_npSort (reps p)
  congr 2
  · simp only [npSort_map_neg, List.getElem_reverse, List.getElem_map, List.length_map, hS]
    congr 2
    omega
  · simp only [npSort_map_neg, List.getElem_reverse, List.getElem_map, List.length_map, hS]
    congr 2
    omega

example : ∃ lo hi : ℝ, calcPercentileInterval (fun _ : Unit => [3, 1, 2]) (.num 90) () =
    .ok (lo, hi) ∧ lo ∈ ([3, 1, 2] : List ℝ) ∧ hi ∈ ([3, 1, 2] : List ℝ) ∧ lo ≤ hi := by
  obtain ⟨lo, hi, h, a, b, d, _⟩ := percentile_interval (fun _ : Unit => [3, 1, 2]) ()
    (by simp) (c := 90) (by norm_num) (by norm_num)
  exact ⟨lo, hi, h, a, b, d⟩

/-! ## C63: acceleration -/

private lemma sum_map_add (l : List ℝ) (t : ℝ) : (l.map fun x => x + t).sum = l.sum + l.length * t := by
  induction l with
  | nil => simp
  | cons x l ih =>
    simp only [List.map_cons, List.sum_cons, ih, List.length_cons]
    push_cast
    ring

private lemma sum_map_mul (l : List ℝ) (k : ℝ) (f : ℝ → ℝ) :
    (l.map fun x => k * f x).sum = k * (l.map f).sum := by
  induction l with
  | nil => simp
  | cons x l ih => simp only [List.map_cons, List.sum_cons, ih]; ring

/-- **C63**.  Shifting all jackknife replicates does not change the acceleration. -/
theorem acceleration_shift (jack : List ℝ) (t : ℝ) :
    accelerationBca (jack.map fun x => x + t) = accelerationBca jack := by
  rcases eq_or_ne jack [] with rfl | hne
  · rfl
  have hn : (jack.length : ℝ) ≠ 0 := by
    have := List.length_pos_iff.2 hne
    positivity
  have e : (jack.map fun x => x + t).map
      (fun x => (jack.map fun x => x + t).sum / ((jack.map fun x => x + t).length : ℝ) - x) =
      jack.map fun x => jack.sum / (jack.length : ℝ) - x := by
    rw [List.map_map, sum_map_add, List.length_map]
    refine List.map_congr_left fun x _ => ?_
    simp only [Function.comp_apply]
    field_simp
    ring
  simp only [accelerationBca, e]

private lemma sq_sum_nonneg (l : List ℝ) : 0 ≤ (l.map fun d => d ^ 2).sum := by
  apply List.sum_nonneg
  intro x hx
  obtain ⟨d, _, rfl⟩ := List.mem_map.1 hx
  positivity

private lemma mem_of_sq_sum_zero {l : List ℝ} (h : (l.map fun d => d ^ 2).sum = 0) :
    ∀ d ∈ l, d = 0 := by
  induction l with
  | nil => simp
  | cons x l ih =>
    simp only [List.map_cons, List.sum_cons] at h
    have h1 := sq_sum_nonneg l
    have h2 := sq_nonneg x
    intro d hd
    rcases List.mem_cons.1 hd with rfl | hd
    · exact pow_eq_zero_iff (two_ne_zero) |>.1 (by linarith)
    · exact ih (by linarith) d hd

private lemma cube_sum_zero {l : List ℝ} (h : (l.map fun d => d ^ 2).sum = 0) :
    (l.map fun d => d ^ 3).sum = 0 := by
  have := mem_of_sq_sum_zero h
  apply List.sum_eq_zero
  intro x hx
  obtain ⟨d, hd, rfl⟩ := List.mem_map.1 hx
  rw [this d hd]; norm_num

/-- The differences from the mean. -/
private noncomputable def diffs (jack : List ℝ) : List ℝ :=
  jack.map fun x => jack.sum / (jack.length : ℝ) - x

private lemma accel_eq (jack : List ℝ) : accelerationBca jack =
    ((diffs jack).map fun d => d ^ 3).sum /
      (6 * (((diffs jack).map fun d => d ^ 2).sum) ^ (1.5 : ℝ)) := by
  have hdef : accelerationBca jack = ((diffs jack).map fun d => d ^ 3).sum /
      (if 6 * (((diffs jack).map fun d => d ^ 2).sum) ^ (1.5 : ℝ) = 0 then 1e-16
        else 6 * (((diffs jack).map fun d => d ^ 2).sum) ^ (1.5 : ℝ)) := rfl
  rw [hdef]
  split_ifs with h
  · have h0 : ((diffs jack).map fun d => d ^ 2).sum = 0 := by
      have := (mul_eq_zero.1 h).resolve_left (by norm_num)
      exact ((Real.rpow_eq_zero_iff_of_nonneg (sq_sum_nonneg _)).1 this).1
    rw [cube_sum_zero h0]; simp
  · rfl

private lemma diffs_mul (jack : List ℝ) (k : ℝ) :
    diffs (jack.map fun x => k * x) = (diffs jack).map fun d => k * d := by
  unfold diffs
  have h : (jack.map fun x => k * x).sum = k * jack.sum := by
    have := sum_map_mul jack k (fun x => x)
    simpa using this
  rw [h, List.length_map, List.map_map, List.map_map]
  refine List.map_congr_left fun x _ => ?_
  simp only [Function.comp_apply]
  ring

private lemma diffs_pow (l : List ℝ) (k : ℝ) (m : ℕ) :
    ((l.map fun d => k * d).map fun d => d ^ m).sum = k ^ m * (l.map fun d => d ^ m).sum := by
  rw [List.map_map, ← sum_map_mul]
  congr 1
  refine List.map_congr_left fun x _ => ?_
  simp only [Function.comp_apply, mul_pow]

/-- **C63**.  Multiplying all jackknife replicates by a positive number does not change the
acceleration. -/
theorem acceleration_scale (jack : List ℝ) {k : ℝ} (hk : 0 < k) :
    accelerationBca (jack.map fun x => k * x) = accelerationBca jack := by
  rw [accel_eq, accel_eq, diffs_mul, diffs_pow, diffs_pow,
    Real.mul_rpow (by positivity) (sq_sum_nonneg _)]
  have : (k ^ 2 : ℝ) ^ (1.5 : ℝ) = k ^ 3 := by
    rw [← Real.rpow_natCast, ← Real.rpow_mul hk.le, ← Real.rpow_natCast]
    norm_num
  rw [this]
  have hk3 : k ^ 3 ≠ 0 := by positivity
  rw [show 6 * (k ^ 3 * ((diffs jack).map fun d => d ^ 2).sum ^ (1.5 : ℝ)) =
    k ^ 3 * (6 * ((diffs jack).map fun d => d ^ 2).sum ^ (1.5 : ℝ)) by ring,
    mul_div_mul_left _ _ hk3]

/-- **C63**.  Negating all jackknife replicates changes the sign of the acceleration. -/
theorem acceleration_neg (jack : List ℝ) :
    accelerationBca (jack.map fun x => -x) = -accelerationBca jack := by
  have e : (jack.map fun x => -x) = jack.map fun x => (-1) * x := by
    refine List.map_congr_left fun x _ => ?_; ring
  rw [e, accel_eq, accel_eq, diffs_mul, diffs_pow, diffs_pow]
  norm_num
  ring

/-- The guard against a zero denominator is harmless: identical replicates have acceleration 0. -/
theorem acceleration_const (n : ℕ) (x : ℝ) : accelerationBca (List.replicate n x) = 0 := by
  rcases Nat.eq_zero_or_pos n with rfl | hn
  · simp [accelerationBca]
  · have hd : ((diffs (List.replicate n x)).map fun d => d ^ 3).sum = 0 := by
      apply List.sum_eq_zero
      intro y hy
      obtain ⟨d, hd, rfl⟩ := List.mem_map.1 hy
      obtain ⟨z, hz, rfl⟩ := List.mem_map.1 hd
      rw [List.eq_of_mem_replicate hz, List.sum_replicate, List.length_replicate, nsmul_eq_mul]
      have : (n : ℝ) ≠ 0 := by positivity
      field_simp
      ring
    rw [accel_eq, hd, zero_div]

private lemma cube_le (l : List ℝ) :
    |(l.map fun d => d ^ 3).sum| ≤ ((l.map fun d => d ^ 2).sum) ^ (1.5 : ℝ) := by
  set Q := (l.map fun d => d ^ 2).sum with hQ
  have hQ0 : 0 ≤ Q := sq_sum_nonneg l
  have hmem : ∀ d ∈ l, |d| ≤ Real.sqrt Q := by
    intro d hd
    rw [← Real.sqrt_sq_eq_abs]
    apply Real.sqrt_le_sqrt
    exact List.single_le_sum (l := l.map fun d => d ^ 2) (by
      intro x hx
      obtain ⟨e, _, rfl⟩ := List.mem_map.1 hx
      positivity) _ (List.mem_map.2 ⟨d, hd, rfl⟩)
  have hbound : ∀ m : List ℝ, (∀ d ∈ m, |d| ≤ Real.sqrt Q) →
      |(m.map fun d => d ^ 3).sum| ≤ Real.sqrt Q * (m.map fun d => d ^ 2).sum := by
    intro m
    induction m with
    | nil => simp
    | cons x m ih =>
      intro h
      have hx := h x List.mem_cons_self
      have ih' := ih fun d hd => h d (List.mem_cons_of_mem _ hd)
      simp only [List.map_cons, List.sum_cons]
      refine (abs_add_le _ _).trans ?_
      have : |x ^ 3| ≤ Real.sqrt Q * x ^ 2 := by
        rw [abs_pow, ← sq_abs x]
        have := abs_nonneg x
        nlinarith [mul_le_mul_of_nonneg_right hx (sq_nonneg |x|)]
      nlinarith
  refine (hbound l hmem).trans ?_
  rw [← hQ, Real.sqrt_eq_rpow]
  rcases hQ0.lt_or_eq with h | h
  · have e : Q ^ (1 / 2 : ℝ) * Q = Q ^ (1 / 2 : ℝ) * Q ^ (1 : ℝ) := by rw [Real.rpow_one]
    rw [e, ← Real.rpow_add h]
    norm_num
  · rw [← h]; norm_num

/-- The acceleration never exceeds one sixth in absolute value. -/
theorem acceleration_bound (jack : List ℝ) : |accelerationBca jack| ≤ 1 / 6 := by
  rw [accel_eq, abs_div]
  have h := cube_le (diffs jack)
  set Q := (((diffs jack).map fun d => d ^ 2).sum) ^ (1.5 : ℝ) with hQ
  have hQ0 : 0 ≤ Q := Real.rpow_nonneg (sq_sum_nonneg _) _
  rcases hQ0.lt_or_eq with hq | hq
  · rw [abs_of_pos (by positivity : (0 : ℝ) < 6 * Q), div_le_div_iff₀ (by positivity) (by norm_num)]
    linarith
  · rw [← hq]; norm_num

/-! ## C63: levels and interval -/

private lemma levels_zero {ppf : ℝ → ℝ} (hp : IsNormQuantile ppf) {alpha : ℝ} (h0 : 0 < alpha)
    (h1 : alpha < 100) :
    lowerBcaPercentile ppf normCdf alpha 0 0 = alpha / 2 ∧
    upperBcaPercentile ppf normCdf alpha 0 0 = 100 - alpha / 2 := by
  constructor
  · simp only [lowerBcaPercentile, bcaLevel, zero_add, zero_mul, sub_zero, div_one]
    rw [hp _ (by linarith) (by linarith)]; ring
  · simp only [upperBcaPercentile, bcaLevel, zero_add, zero_mul, sub_zero, div_one]
    rw [hp _ (by linarith) (by linarith)]; ring

/-- **C63**.  Without bias correction and acceleration the BCa percentiles are `alpha / 2` and
`100 - alpha / 2`. -/
theorem bca_levels_reduce {ppf : ℝ → ℝ} (hp : IsNormQuantile ppf) {alpha : ℝ} (h0 : 0 < alpha)
    (h1 : alpha < 100) :
    lowerBcaPercentile ppf normCdf alpha 0 0 = alpha / 2 ∧
    upperBcaPercentile ppf normCdf alpha 0 0 = 100 - alpha / 2 := levels_zero hp h0 h1

private lemma bca_eq {ppf : ℝ → ℝ} {reps jack : P → List ℝ} {mle : P → ℝ} {p : P} {c : ℝ}
    (h0 : 0 < c) (h1 : c < 100) (hs0 : 0 < shareBelow (reps p) (mle p))
    (hs1 : shareBelow (reps p) (mle p) < 1) :
    calcBcaInterval ppf normCdf reps jack mle (.num c) p = (do
      let lower ← npPercentile .lower (reps p) (lowerBcaPercentile ppf normCdf (100 - c)
        (ppf (shareBelow (reps p) (mle p))) (accelerationBca (jack p)))
      let upper ← npPercentile .higher (reps p) (upperBcaPercentile ppf normCdf (100 - c)
        (ppf (shareBelow (reps p) (mle p))) (accelerationBca (jack p)))
      .ok (lower, upper)) := by
  have hc : checkConfPercentage (.num c) = .ok c := by simp [checkConfPercentage, h0, h1]
  unfold calcBcaInterval
  rw [hc]
  simp only [bind, Except.bind]
  rw [if_neg (by rintro (h | h) <;> linarith)]
  rfl

/-- **C63**.  When half of the replicates lie below the estimate and the jackknife replicates have no
skewness, the BCa interval is the percentile interval. -/
theorem bca_interval_reduces {ppf : ℝ → ℝ} (hp : IsNormQuantile ppf) (reps jack : P → List ℝ)
    (mle : P → ℝ) (p : P) {c : ℝ} (h0 : 0 < c) (h1 : c < 100)
    (hbias : shareBelow (reps p) (mle p) = 1 / 2) (hacc : accelerationBca (jack p) = 0) :
    calcBcaInterval ppf normCdf reps jack mle (.num c) p =
      calcPercentileInterval reps (.num c) p := by
  rw [bca_eq h0 h1 (by rw [hbias]; norm_num) (by rw [hbias]; norm_num), hbias, hacc]
  have hz : ppf (1 / 2) = 0 := by
    have := quantile_cdf hp 0
    rwa [normCdf_zero] at this
  obtain ⟨e1, e2⟩ := levels_zero hp (alpha := 100 - c) (by linarith) (by linarith)
  rw [hz, e1, e2]
  have hc : checkConfPercentage (.num c) = .ok c := by simp [checkConfPercentage, h0, h1]
  simp only [calcPercentileInterval, hc, alphaFromConf, bind, Except.bind]

private lemma share_ne_nil {xs : List ℝ} {m : ℝ} (h : 0 < shareBelow xs m) : xs ≠ [] := by
  rintro rfl
  simp [shareBelow] at h

private lemma level_range (z b a : ℝ) :
    0 ≤ bcaLevel normCdf z b a ∧ bcaLevel normCdf z b a ≤ 100 := by
  unfold bcaLevel
  have h1 := normCdf_pos (b + (b + z) / (1 - a * (b + z)))
  have h2 := normCdf_lt_one (b + (b + z) / (1 - a * (b + z)))
  constructor
  · positivity
  · linarith

/-- **C63**, the formula.  With some but not all replicates below the estimate, let `z0` be the normal
quantile of the share below, `a` the acceleration, and `zl`, `zu` the normal quantiles of `alpha / 2`
and `1 - alpha / 2`.  The endpoints are observed replicates: the percentiles at
`100 * Phi(z0 + (z0 + z) / (1 - a * (z0 + z)))` for `z = zl` rounded down and `z = zu` rounded up. -/
theorem bca_interval_formula {ppf : ℝ → ℝ} (hp : IsNormQuantile ppf) (reps jack : P → List ℝ)
    (mle : P → ℝ) (p : P) {c : ℝ} (h0 : 0 < c) (h1 : c < 100)
    (hs0 : 0 < shareBelow (reps p) (mle p)) (hs1 : shareBelow (reps p) (mle p) < 1)
    (z0 zl zu a : ℝ) (hz0 : normCdf z0 = shareBelow (reps p) (mle p))
    (hzl : normCdf zl = (100 - c) / 200) (hzu : normCdf zu = 1 - (100 - c) / 200)
    (ha : a = accelerationBca (jack p)) :
    ∃ lo hi, calcBcaInterval ppf normCdf reps jack mle (.num c) p = .ok (lo, hi) ∧
      lo ∈ reps p ∧ hi ∈ reps p ∧
      npPercentile .lower (reps p) (100 * normCdf (z0 + (z0 + zl) / (1 - a * (z0 + zl)))) = .ok lo ∧
      npPercentile .higher (reps p) (100 * normCdf (z0 + (z0 + zu) / (1 - a * (z0 + zu)))) =
        .ok hi := by
  have e0 : ppf (shareBelow (reps p) (mle p)) = z0 := by rw [← hz0, quantile_cdf hp]
  have el : ppf ((100 - c) / (100 * 2)) = zl := by
    rw [show (100 - c) / (100 * 2) = (100 - c) / 200 by ring, ← hzl, quantile_cdf hp]
  have eu : ppf (1 - (100 - c) / (100 * 2)) = zu := by
    rw [show 1 - (100 - c) / (100 * 2) = 1 - (100 - c) / 200 by ring, ← hzu, quantile_cdf hp]
  rw [bca_eq h0 h1 hs0 hs1, e0, ← ha]
  unfold lowerBcaPercentile upperBcaPercentile
  rw [el, eu]
  have hl := level_range zl z0 a
  have hu := level_range zu z0 a
  obtain ⟨p1, q1⟩ := npPercentile_ok .lower (share_ne_nil hs0) hl.1 hl.2
  obtain ⟨p2, q2⟩ := npPercentile_ok .higher (share_ne_nil hs0) hu.1 hu.2
  refine ⟨_, _, by simp only [q1, q2, bind, Except.bind], sorted_get_mem _ p1, sorted_get_mem _ p2,
    ?_, ?_⟩
  · rw [mul_comm]; exact q1
  · rw [mul_comm]; exact q2

private lemma level_mono {b a z z' : ℝ} (hz : z ≤ z') (h : 0 < 1 - a * (b + z))
    (h' : 0 < 1 - a * (b + z')) : bcaLevel normCdf z b a ≤ bcaLevel normCdf z' b a := by
  unfold bcaLevel
  have : (b + z) / (1 - a * (b + z)) ≤ (b + z') / (1 - a * (b + z')) := by
    rw [div_le_div_iff₀ h h']
    nlinarith
  have := normCdf_strictMono.monotone (add_le_add_right this b)
  simp only [mul_comm _ (100 : ℝ)]
  linarith

/-- **C63**, order.  The lower endpoint does not exceed the upper one when `1 - a * (z0 + z)` is positive
at both normal quantiles `z`. -/
theorem bca_interval_ordered {ppf : ℝ → ℝ} (hp : IsNormQuantile ppf) (reps jack : P → List ℝ)
    (mle : P → ℝ) (p : P) {c : ℝ} (h0 : 0 < c) (h1 : c < 100)
    (hs0 : 0 < shareBelow (reps p) (mle p)) (hs1 : shareBelow (reps p) (mle p) < 1)
    (z0 zl zu : ℝ) (hz0 : normCdf z0 = shareBelow (reps p) (mle p))
    (hzl : normCdf zl = (100 - c) / 200) (hzu : normCdf zu = 1 - (100 - c) / 200)
    (hvl : accelerationBca (jack p) * (z0 + zl) < 1)
    (hvu : accelerationBca (jack p) * (z0 + zu) < 1) :
    ∃ lo hi, calcBcaInterval ppf normCdf reps jack mle (.num c) p = .ok (lo, hi) ∧ lo ≤ hi := by
  have e0 : ppf (shareBelow (reps p) (mle p)) = z0 := by rw [← hz0, quantile_cdf hp]
  have el : ppf ((100 - c) / (100 * 2)) = zl := by
    rw [show (100 - c) / (100 * 2) = (100 - c) / 200 by ring, ← hzl, quantile_cdf hp]
  have eu : ppf (1 - (100 - c) / (100 * 2)) = zu := by
    rw [show 1 - (100 - c) / (100 * 2) = 1 - (100 - c) / 200 by ring, ← hzu, quantile_cdf hp]
  rw [bca_eq h0 h1 hs0 hs1, e0]
  unfold lowerBcaPercentile upperBcaPercentile
  rw [el, eu]
  have hne := share_ne_nil hs0
  have hl := level_range zl z0 (accelerationBca (jack p))
  have hu := level_range zu z0 (accelerationBca (jack p))
  obtain ⟨p1, q1⟩ := npPercentile_ok .lower hne hl.1 hl.2
  obtain ⟨p2, q2⟩ := npPercentile_ok .higher hne hu.1 hu.2
  refine ⟨_, _, by simp only [q1, q2, bind, Except.bind]; rfl, sorted_get_le _ ?_ p2⟩
  apply posOf_lower_le_higher (List.length_pos_iff.2 hne)
  apply level_mono _ (by linarith) (by linarith)
  have : normCdf zl ≤ normCdf zu := by rw [hzl, hzu]; linarith
  exact normCdf_strictMono.le_iff_le.1 this

/-- **C63**, order, in practice: since the acceleration is at most 1/6, the endpoints are ordered
whenever `|z0 + z| < 6` at both quantiles. -/
theorem bca_interval_ordered_six {ppf : ℝ → ℝ} (hp : IsNormQuantile ppf) (reps jack : P → List ℝ)
    (mle : P → ℝ) (p : P) {c : ℝ} (h0 : 0 < c) (h1 : c < 100)
    (hs0 : 0 < shareBelow (reps p) (mle p)) (hs1 : shareBelow (reps p) (mle p) < 1)
    (z0 zl zu : ℝ) (hz0 : normCdf z0 = shareBelow (reps p) (mle p))
    (hzl : normCdf zl = (100 - c) / 200) (hzu : normCdf zu = 1 - (100 - c) / 200)
    (hvl : |z0 + zl| < 6) (hvu : |z0 + zu| < 6) :
    ∃ lo hi, calcBcaInterval ppf normCdf reps jack mle (.num c) p = .ok (lo, hi) ∧ lo ≤ hi := by
  have hb : ∀ x : ℝ, |x| < 6 → accelerationBca (jack p) * x < 1 := by
    intro x hx
    have h := acceleration_bound (jack p)
    calc accelerationBca (jack p) * x ≤ |accelerationBca (jack p) * x| := le_abs_self _
      _ = |accelerationBca (jack p)| * |x| := abs_mul _ _
      _ < 1 := by nlinarith [abs_nonneg x, abs_nonneg (accelerationBca (jack p))]
  exact bca_interval_ordered hp reps jack mle p h0 h1 hs0 hs1 z0 zl zu hz0 hzl hzu (hb _ hvl)
    (hb _ hvu)

/-- **C63**, direction: without acceleration, a median of the replicates below the estimate (more than
half of the replicates below it) moves both levels up. -/
theorem bca_bias_direction {ppf : ℝ → ℝ} (hp : IsNormQuantile ppf) {alpha bias : ℝ} (h0 : 0 < alpha)
    (h1 : alpha < 100) (hb : 0 < bias) :
    alpha / 2 < lowerBcaPercentile ppf normCdf alpha bias 0 ∧
    100 - alpha / 2 < upperBcaPercentile ppf normCdf alpha bias 0 := by
  obtain ⟨e1, e2⟩ := levels_zero hp h0 h1
  constructor
  · rw [← e1]
    simp only [lowerBcaPercentile, bcaLevel, zero_add, zero_mul, sub_zero, div_one]
    have := normCdf_strictMono (show ppf (alpha / (100 * 2)) <
      bias + (bias + ppf (alpha / (100 * 2))) by linarith)
    linarith
  · rw [← e2]
    simp only [upperBcaPercentile, bcaLevel, zero_add, zero_mul, sub_zero, div_one]
    have := normCdf_strictMono (show ppf (1 - alpha / (100 * 2)) <
      bias + (bias + ppf (1 - alpha / (100 * 2))) by linarith)
    linarith

/-- A case meeting the hypotheses of `bca_interval_reduces`: four replicates around the estimate and
symmetric jackknife replicates; the BCa interval is then an actual interval. -/
example : ∃ ppf : ℝ → ℝ, IsNormQuantile ppf ∧
    calcBcaInterval ppf normCdf (fun _ : Unit => [1, 2, 3, 4]) (fun _ => [1, 2, 3]) (fun _ => 5 / 2)
      (.num 90) () = calcPercentileInterval (fun _ : Unit => [1, 2, 3, 4]) (.num 90) () := by
  obtain ⟨ppf, hp⟩ := exists_normQuantile
  refine ⟨ppf, hp, bca_interval_reduces hp _ _ _ () (by norm_num) (by norm_num) ?_ ?_⟩
  · simp only [shareBelow]
    rw [show (List.filter (fun x : ℝ => decide (x < 5 / 2)) [1, 2, 3, 4]) = [1, 2] by
      norm_num [List.filter]]
    norm_num
  · norm_num [accelerationBca]

/-- A case meeting the hypotheses of the formula and the order theorem, with one of four replicates
below the estimate (`z0 < 0`) and an acceleration that is not zero. -/
example : ∃ z0 zl zu : ℝ, normCdf z0 = shareBelow [1, 2, 3, 4] (3 / 2) ∧
    normCdf zl = (100 - 90) / 200 ∧ normCdf zu = 1 - (100 - 90) / 200 ∧
    0 < shareBelow [1, 2, 3, 4] (3 / 2) ∧ shareBelow [1, 2, 3, 4] (3 / 2) < 1 ∧
    accelerationBca [0, 0, 3] < 0 := by
  have hs : shareBelow [1, 2, 3, 4] (3 / 2) = 1 / 4 := by
    simp only [shareBelow]
    rw [show (List.filter (fun x : ℝ => decide (x < 3 / 2)) [1, 2, 3, 4]) = [1] by
      norm_num [List.filter]]
    norm_num
  obtain ⟨ppf, hp⟩ := exists_normQuantile
  refine ⟨ppf (1 / 4), ppf ((100 - 90) / 200), ppf (1 - (100 - 90) / 200), ?_,
    hp _ (by norm_num) (by norm_num), hp _ (by norm_num) (by norm_num), ?_, ?_, ?_⟩
  · rw [hs]; exact hp _ (by norm_num) (by norm_num)
  · rw [hs]; norm_num
  · rw [hs]; norm_num
  · have e : ((diffs [0, 0, 3]).map fun d => d ^ 3).sum = -6 := by norm_num [diffs]
    have e2 : ((diffs [0, 0, 3]).map fun d => d ^ 2).sum = 6 := by norm_num [diffs]
    rw [accel_eq, e, e2]
    exact div_neg_of_neg_of_pos (by norm_num) (by positivity)

end Pylogit
