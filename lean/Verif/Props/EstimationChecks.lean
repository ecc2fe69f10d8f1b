import Verif.Model.Boot
import Verif.Props.EstimatorsMore
import Verif.Props.WideToLong

/-!
# C81: what an estimation object is built from
-/

set_option linter.unusedSectionVars false

open Finset Matrix Function

namespace Pylogit

open Spec

namespace Spec

/-- The ridge argument is `None` or a number. -/
def RidgeArg (ridge : Option (PyVal ℝ)) : Prop := ridge = none ∨ ∃ x, ridge = some (.num x)

/-- The number the ridge argument stands for, if any. -/
def ridgeNumber : Option (PyVal ℝ) → Option ℝ
  | some (.num x) => some x
  | _ => none

/-- The weights argument is `None` or a one-dimensional array with one non-negative entry per row. -/
def GoodWeights (w : WeightsArg) (numRows : ℕ) : Prop :=
  w = .none ∨ ∃ vals, w = .array 1 vals ∧ vals.length = numRows ∧ ∀ x ∈ vals, 0 ≤ x

end Spec

section Checks

variable {R P V : Type} [LinearOrder V] [AddCommGroup V] [IsOrderedAddMonoid V]

/-- **C81**. An estimation object is built iff the ridge argument is `None` or a number, the observation ids
of the rows never decrease and the weights are `None` or one non-negative number per row; and it is then built
from exactly the given ridge, weights and constraints. -/
theorem estimation_object_iff (obsIds : List V) (ridge : Option (PyVal ℝ)) (constrained : Option (List P))
    (weightsArg : WeightsArg) (weights : Option (R → ℝ))
    (mk : Option ℝ → Option (R → ℝ) → Option (List P) → Estimator P) (e : Estimator P) :
    createEstimationObj obsIds ridge constrained weightsArg weights mk = .ok e ↔
      (RidgeArg ridge ∧ obsIds.Pairwise (· ≤ ·) ∧ GoodWeights weightsArg obsIds.length) ∧
        e = mk (ridgeNumber ridge) weights constrained := by
  have h2 : ridgeNumber ridge = (match ridge with
      | some (.num x) => some x
      | _ => none) := by
    rcases ridge with _ | (_ | _ | _) <;> rfl
  have h1 : checkRidge ridge = .ok () ↔ RidgeArg ridge := by
    rcases ridge with _ | (_ | _ | _) <;> simp [checkRidge, RidgeArg]
  have h3 : checkWeights weightsArg obsIds.length = .ok () ↔ GoodWeights weightsArg obsIds.length := by
    rw [checkWeights_iff, GoodWeights]
  unfold createEstimationObj estimationChecks
  rw [← h1, ← h3, ← ensureContiguity_ok, h2]
  cases checkRidge ridge with
  | error x => simp [bind, Except.bind]
  | ok u =>
    cases ensureContiguity obsIds with
    | error x => simp [bind, Except.bind]
    | ok u' =>
      cases checkWeights weightsArg obsIds.length with
      | error x => simp [bind, Except.bind]
      | ok u'' =>
        simp only [bind, Except.bind, true_and, Except.ok.injEq]
        exact eq_comm

/-- **C81** (which exception). A ridge argument that is not a number gives `TypeError`, whatever the rest;
decreasing observation ids or bad weights give `ValueError`. -/
theorem estimation_object_errors (obsIds : List V) (ridge : Option (PyVal ℝ)) (constrained : Option (List P))
    (weightsArg : WeightsArg) (weights : Option (R → ℝ))
    (mk : Option ℝ → Option (R → ℝ) → Option (List P) → Estimator P) (err : Err) :
    createEstimationObj obsIds ridge constrained weightsArg weights mk = .error err ↔
      (¬ RidgeArg ridge ∧ err = .typeError) ∨
      (RidgeArg ridge ∧ ¬ (obsIds.Pairwise (· ≤ ·) ∧ GoodWeights weightsArg obsIds.length) ∧
        err = .valueError) := by
  have h1 : (RidgeArg ridge ∧ checkRidge ridge = .ok ()) ∨
      (¬ RidgeArg ridge ∧ checkRidge ridge = .error .typeError) := by
    rcases ridge with _ | (_ | _ | _) <;> simp [checkRidge, RidgeArg]
  have h3 : checkWeights weightsArg obsIds.length = .ok () ↔ GoodWeights weightsArg obsIds.length := by
    rw [checkWeights_iff, GoodWeights]
  have h4 : ∀ x, ensureContiguity obsIds = .error x → x = .valueError := by
    intro x h
    unfold ensureContiguity at h
    split_ifs at h
    cases h; rfl
  unfold createEstimationObj estimationChecks
  rw [← h3, ← ensureContiguity_ok]
  rcases h1 with ⟨hr, hc⟩ | ⟨hr, hc⟩
  · cases hco : ensureContiguity obsIds with
    | error x => simp [hc, hr, bind, Except.bind, h4 x hco, eq_comm]
    | ok u' =>
      cases hcw : checkWeights weightsArg obsIds.length with
      | error x => simp [hc, hr, bind, Except.bind, checkWeights_error _ _ _ hcw, eq_comm]
      | ok u'' => simp [hc, hr, bind, Except.bind]
  · simp [hc, hr, bind, Except.bind, eq_comm]

end Checks

/-! ## The sign of the ridge penalty is not checked -/

section Negative

variable {R O P : Type} [Fintype R] [DecidableEq R] [Fintype O] [DecidableEq O] [Fintype P]

/-- Probabilities of clipped utilities are bounded away from zero. -/
theorem clippedLogit_lower (f : R → O) (h : R → ℝ) (r : R) :
    Real.exp (-1400) / Fintype.card R ≤ clippedLogit f h r := by
  have hclip : ∀ x, -700 ≤ clip700 x ∧ clip700 x ≤ 700 := fun x =>
    ⟨le_max_left _ _, max_le (by norm_num) (min_le_right _ _)⟩
  have hden : ∑ s ∈ rowsOf f (f r), Real.exp (clip700 (h s)) ≤ Fintype.card R * Real.exp 700 := by
    calc ∑ s ∈ rowsOf f (f r), Real.exp (clip700 (h s)) ≤ ∑ _s ∈ rowsOf f (f r), Real.exp 700 :=
          Finset.sum_le_sum fun s _ => Real.exp_le_exp.2 (hclip _).2
      _ = (rowsOf f (f r)).card * Real.exp 700 := by simp
      _ ≤ Fintype.card R * Real.exp 700 := by
          gcongr
          exact Finset.card_le_univ _
  have hpos : 0 < ∑ s ∈ rowsOf f (f r), Real.exp (clip700 (h s)) :=
    Finset.sum_pos (fun _ _ => Real.exp_pos _) ⟨r, mem_rowsOf.2 rfl⟩
  have hcard : (0 : ℝ) < Fintype.card R := by
    exact_mod_cast Fintype.card_pos_iff.2 ⟨r⟩
  rw [clippedLogit, logitProb, div_le_div_iff₀ hcard hpos]
  calc Real.exp (-1400) * ∑ s ∈ rowsOf f (f r), Real.exp (clip700 (h s))
      ≤ Real.exp (-1400) * (Fintype.card R * Real.exp 700) := by gcongr
    _ = Real.exp (-700) * Fintype.card R := by
        rw [mul_left_comm, ← Real.exp_add]; norm_num; ring
    _ ≤ Real.exp (clip700 (h r)) * Fintype.card R := by
        gcongr
        exact (hclip _).1

/-- **C81** (disagreement). A negative ridge number is accepted, although the documentation asks for a
non-negative one; the penalised log-likelihood of every logit-type model is then unbounded, so that no
estimate exists. -/
theorem negative_ridge_no_maximum [Nonempty P] (f : R → O) (c : O → R) (weights : Option (R → ℝ)) {ρ : ℝ}
    (hρ : ρ < 0) (h : (P → ℝ) → R → ℝ) (B : ℝ) :
    ∃ θ, B < penalisedLogLik c weights (some ρ) (fun θ => clippedLogit f (h θ)) θ := by
  classical
  obtain ⟨i⟩ := ‹Nonempty P›
  set w := weights.getD fun _ => 1
  -- a lower bound for the log-likelihood
  set L : ℝ := ∑ o, |w (c o)| * |Real.log (Real.exp (-1400) / Fintype.card R)|
  have hL : ∀ θ, -L ≤ ∑ o, w (c o) * Real.log (clippedLogit f (h θ) (c o)) := by
    intro θ
    rw [← Finset.sum_neg_distrib]
    refine Finset.sum_le_sum fun o _ => ?_
    have hcard : (0 : ℝ) < Fintype.card R := by
      exact_mod_cast Fintype.card_pos_iff.2 ⟨c o⟩
    have h1 := clippedLogit_lower f (h θ) (c o)
    have h0 : (0 : ℝ) < Real.exp (-1400) / Fintype.card R := by positivity
    have h2 : clippedLogit f (h θ) (c o) ≤ 1 := by
      rw [clippedLogit, logitProb]
      refine div_le_one_of_le₀ ?_ (Finset.sum_nonneg fun _ _ => (Real.exp_pos _).le)
      exact Finset.single_le_sum (f := fun s => Real.exp (clip700 (h θ s)))
        (fun _ _ => (Real.exp_pos _).le) (mem_rowsOf.2 rfl)
    have h3 := Real.log_le_log h0 h1
    have h4 : Real.log (clippedLogit f (h θ) (c o)) ≤ 0 := Real.log_nonpos (h0.le.trans h1) h2
    have h5 : |Real.log (clippedLogit f (h θ) (c o))| ≤ |Real.log (Real.exp (-1400) / Fintype.card R)| := by
      rw [abs_of_nonpos h4, abs_of_nonpos (h3.trans h4)]
      linarith
    have h6 : |w (c o) * Real.log (clippedLogit f (h θ) (c o))| ≤
        |w (c o)| * |Real.log (Real.exp (-1400) / Fintype.card R)| := by
      rw [abs_mul]; gcongr
    exact (abs_le.1 h6).1
  -- a parameter vector with a large penalty term
  obtain ⟨t, ht⟩ : ∃ t : ℝ, B + L < -ρ * t ^ 2 := by
    have hρ' : 0 < -ρ := by linarith
    refine ⟨(|B + L| + 1) / (-ρ) + 1, ?_⟩
    have h1 : (|B + L| + 1) / (-ρ) * (-ρ) = |B + L| + 1 := div_mul_cancel₀ _ hρ'.ne'
    have h2 : 0 ≤ (|B + L| + 1) / (-ρ) := by positivity
    have h3 := le_abs_self (B + L)
    set s := (|B + L| + 1) / (-ρ)
    have h4 : -ρ * (s + 1) ^ 2 = s * (-ρ) + (-ρ) * (s ^ 2 + s + 1) := by ring
    have h5 : 0 < -ρ * (s ^ 2 + s + 1) := by positivity
    rw [h4, h1]
    linarith
  refine ⟨update 0 i t, ?_⟩
  have hs : ∑ j, update (0 : P → ℝ) i t j ^ 2 = t ^ 2 := by
    rw [Finset.sum_eq_single i]
    · simp
    · intro j _ hj; simp [hj]
    · simp
  rw [penalisedLogLik, hs]
  simp only [Option.getD_some]
  have := hL (update 0 i t)
  linarith

end Negative

/-! ## Non-vacuity -/

example (mk : Option ℝ → Option (Fin 3 → ℝ) → Option (List (Fin 1)) → Estimator (Fin 1)) :
    createEstimationObj [(1 : ℤ), 1, 2] (some (.num 0.5)) (some [0]) (.array 1 [1, 0, 2]) (some ![1, 0, 2]) mk =
      .ok (mk (some 0.5) (some ![1, 0, 2]) (some [0])) := by
  rw [estimation_object_iff]
  refine ⟨⟨Or.inr ⟨_, rfl⟩, by decide, Or.inr ⟨_, rfl, rfl, ?_⟩⟩, rfl⟩
  intro x hx
  fin_cases hx <;> norm_num

example (mk : Option ℝ → Option (Fin 3 → ℝ) → Option (List (Fin 1)) → Estimator (Fin 1)) :
    createEstimationObj [(1 : ℤ), 2, 1] (some (.num 0.5)) none .none none mk = .error .valueError := by
  rw [estimation_object_errors]
  exact Or.inr ⟨Or.inr ⟨_, rfl⟩, by simp, rfl⟩

/-- A negative ridge number passes the checks. -/
example (mk : Option ℝ → Option (Fin 3 → ℝ) → Option (List (Fin 1)) → Estimator (Fin 1)) :
    createEstimationObj [(1 : ℤ), 1, 2] (some (.num (-1))) none .none none mk =
      .ok (mk (some (-1)) none none) := by
  rw [estimation_object_iff]
  exact ⟨⟨Or.inr ⟨_, rfl⟩, by decide, Or.inl rfl⟩, rfl⟩

example : ∃ θ : Fin 1 → ℝ, 1000 < penalisedLogLik ![1, 2] none (some (-1))
    (fun θ => clippedLogit exObs (exFit.design *ᵥ θ)) θ :=
  negative_ridge_no_maximum exObs _ none (by norm_num) _ _

end Pylogit
