import Verif.Props.Transforms

/-!
# C33: the effect of raising the utility of one row on all probabilities
-/

set_option linter.unusedSectionVars false

open Finset Matrix Function

namespace Pylogit

open Spec

variable {R K ι : Type} [Fintype R] [DecidableEq R] [Fintype K] {n : ℕ}

/-- The transformed utility of a row depends on no other row's systematic utility. -/
def Spec.OwnUtilityOnly {A S I : Type} (T : Transform R A S I ι) (ids : R → ι)
    (rta : Matrix R A ℝ) (shape : Option (S → ℝ)) (icpt : Option (I → ℝ)) : Prop :=
  ∀ v v' r, v r = v' r → T v ids rta shape icpt r = T v' ids rta shape icpt r

theorem mnl_own {A S I : Type} (ids : R → ι) (rta : Matrix R A ℝ) :
    OwnUtilityOnly (S := S) (I := I) mnlTransform ids rta none none := fun _ _ _ h => h

theorem scobit_own (ref : Option (Fin (n + 1))) (rta : Matrix R (Fin (n + 1)) ℝ) (ids : R → ι)
    (s : Fin (n + 1) → ℝ) (icpt : Option (Fin n → ℝ)) :
    OwnUtilityOnly (scobitTransform ref) ids rta (some s) icpt := by
  intro v v' r h
  simp only [scobitTransform, h]

theorem uneven_own (ref : Option (Fin (n + 1))) (rta : Matrix R (Fin (n + 1)) ℝ) (ids : R → ι)
    (s : Fin (n + 1) → ℝ) (icpt : Option (Fin n → ℝ)) :
    OwnUtilityOnly (unevenTransform ref) ids rta (some s) icpt := by
  intro v v' r h
  simp only [unevenTransform, h]

theorem clog_own {S : Type} (ref : Option (Fin (n + 1))) (rta : Matrix R (Fin (n + 1)) ℝ)
    (ids : R → ι) (icpt : Option (Fin n → ℝ)) :
    OwnUtilityOnly (S := S) (clogTransform ref) ids rta none icpt := by
  intro v v' r h
  simp only [clogTransform, h]

theorem asym_own (sref : Fin (n + 1)) (ref : Option (Fin (n + 1))) (rta : Matrix R (Fin (n + 1)) ℝ)
    (ids : R → ι) (eta : Fin n → ℝ) (icpt : Option (Fin n → ℝ)) :
    OwnUtilityOnly (asymTransform sref ref) ids rta (some eta) icpt := by
  intro v v' r h
  simp only [asymTransform, h]

private lemma clip_mono' {x y : ℝ} (h : x ≤ y) : clipExponent x ≤ clipExponent y := by
  unfold clipExponent maxExponentVal minExponentVal
  split_ifs <;> linarith

private lemma clip_lt_iff {x y : ℝ} (h : x < y) :
    clipExponent x < clipExponent y ↔ x < 700 ∧ -700 < y := by
  unfold clipExponent maxExponentVal minExponentVal
  constructor
  · intro h'
    split_ifs at h' <;> constructor <;> linarith
  · rintro ⟨h1, h2⟩
    split_ifs <;> linarith

/-- **C33**.  Raise the systematic utility of one row of a model whose transformed utilities increase with, and
depend on nothing but, the row's own utility.  The row's probability never falls, no other alternative of
the observation gains, other observations are not affected; and if the observation has another
alternative, the probability rises unless both transformed utilities are beyond the same clipping bound. -/
theorem raised_utility {O A S I : Type} [Fintype O] [DecidableEq O] {M : Matrix R O ℝ} {f : R → O}
    (hM : Indicates M f) (T : Transform R A S I ι) (ids : R → ι) (rta : Matrix R A ℝ)
    (shape : Option (S → ℝ)) (icpt : Option (I → ℝ)) (hinc : IncreasingInOwnUtility T ids rta shape icpt)
    (hown : OwnUtilityOnly T ids rta shape icpt) {v v' : R → ℝ} {r : R} (hlt : v r < v' r)
    (hsame : ∀ s, s ≠ r → v' s = v s) :
    let P := longProbs M (T v ids rta shape icpt)
    let P' := longProbs M (T v' ids rta shape icpt)
    P r ≤ P' r ∧ (∀ s, s ≠ r → f s = f r → P' s ≤ P s) ∧ (∀ s, f s ≠ f r → P' s = P s) ∧
      ((∃ q, q ≠ r ∧ f q = f r) →
        (P r < P' r ↔ T v ids rta shape icpt r < 700 ∧ -700 < T v' ids rta shape icpt r)) := by
  intro P P'
  set h := T v ids rta shape icpt
  set h' := T v' ids rta shape icpt
  have hhlt : h r < h' r := hinc v v' r hlt
  have hhs : ∀ s, s ≠ r → h' s = h s := fun s hs => hown v' v s (hsame s hs)
  have hes : ∀ s, s ≠ r → longExponentials h' s = longExponentials h s := fun s hs => by
    rw [longExponentials, longExponentials, hhs s hs]
  have he : longExponentials h r ≤ longExponentials h' r :=
    Real.exp_le_exp.2 (clip_mono' hhlt.le)
  have split : ∀ g : R → ℝ, ∑ s ∈ rowsOf f (f r), longExponentials g s =
      longExponentials g r + ∑ s ∈ (rowsOf f (f r)).erase r, longExponentials g s := fun g =>
    (Finset.add_sum_erase _ (fun s => longExponentials g s) (by simp)).symm
  have rest : ∑ s ∈ (rowsOf f (f r)).erase r, longExponentials h' s =
      ∑ s ∈ (rowsOf f (f r)).erase r, longExponentials h s :=
    Finset.sum_congr rfl fun s hs => hes s (Finset.ne_of_mem_erase hs)
  have pos : 0 ≤ ∑ s ∈ (rowsOf f (f r)).erase r, longExponentials h s :=
    Finset.sum_nonneg fun s _ => (longExponentials_pos h s).le
  have p1 := longExponentials_pos h r
  have p2 := longExponentials_pos h' r
  refine ⟨?_, ?_, ?_, ?_⟩
  · show longProbs M h r ≤ longProbs M h' r
    rw [longProbs_eq hM, longProbs_eq hM, split h, split h', rest,
      div_le_div_iff₀ (by linarith) (by linarith)]
    nlinarith
  · intro s hs hf
    show longProbs M h' s ≤ longProbs M h s
    rw [longProbs_eq hM, longProbs_eq hM, hf, split h, split h', rest, hes s hs]
    exact div_le_div_of_nonneg_left (longExponentials_pos h s).le (by linarith) (by linarith)
  · intro s hf
    show longProbs M h' s = longProbs M h s
    rw [longProbs_eq hM, longProbs_eq hM, hes s (fun e => hf (by rw [e]))]
    congr 1
    refine Finset.sum_congr rfl fun q hq => hes q ?_
    rintro rfl
    exact hf (by simpa [eq_comm] using hq)
  · rintro ⟨q, hq, hfq⟩
    have pos : 0 < ∑ s ∈ (rowsOf f (f r)).erase r, longExponentials h s :=
      Finset.sum_pos (fun s _ => longExponentials_pos h s) ⟨q, by simp [hq, hfq]⟩
    rw [← clip_lt_iff hhlt]
    show longProbs M h r < longProbs M h' r ↔ _
    rw [longProbs_eq hM, longProbs_eq hM, split h, split h', rest,
      div_lt_div_iff₀ (by linarith) (by linarith), ← Real.exp_lt_exp (x := clipExponent _)]
    change _ ↔ longExponentials h r < longExponentials h' r
    constructor
    · intro hc
      by_contra hn
      have : longExponentials h r = longExponentials h' r := le_antisymm he (not_lt.1 hn)
      rw [this] at hc
      exact lt_irrefl _ hc
    · intro hc
      nlinarith

/-- Non-vacuity: the Scobit model with three alternatives of one observation; the utility of the first is
raised from 0 to 1, within the bounds, and its probability rises. -/
example (s : Fin 3 → ℝ) (hs : ∀ i, s i = 0) :
    longProbs (Matrix.of fun (_ : Fin 3) (_ : Fin 1) => (1 : ℝ))
        (scobitTransform (n := 2) none ![0, 0, 0] (fun r => r) 1 (some s) none) 0 <
      longProbs (Matrix.of fun (_ : Fin 3) (_ : Fin 1) => (1 : ℝ))
        (scobitTransform (n := 2) none ![1, 0, 0] (fun r => r) 1 (some s) none) 0 := by
  have hA : Indicates (1 : Matrix (Fin 3) (Fin 3) ℝ) id := by
    intro r o; simp [Matrix.one_apply]
  have hz : s = fun _ => 0 := funext hs
  refine ((raised_utility (f := fun _ => (0 : Fin 1)) (by intro r o; fin_cases o; simp)
    (scobitTransform none) _ _ _ _ (scobit_increasing none hA _ s none) (scobit_own none _ _ s none)
    (r := 0) (by simp) (by intro s hs; fin_cases s <;> simp_all)).2.2.2 ⟨1, by simp, rfl⟩).2 ?_
  rw [hz, scobit_zero_shape none hA, scobit_zero_shape none hA]
  norm_num

end Pylogit
