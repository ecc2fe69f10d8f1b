import Verif.Props.EstimatorsMore

/-!
# C84: the BHHH matrices are sums of outer products of individual scores
-/

set_option linter.unusedSectionVars false

open Finset Matrix Function

namespace Pylogit

open Spec

namespace Spec

variable {U P : Type} [Fintype U]

/-- `H` is minus the weighted sum over units `u` of the outer products of the derivatives of `L u` at `x`
(the Berndt-Hall-Hall-Hausman matrix), plus `extra` on the diagonal. -/
def OuterProducts [DecidableEq P] (H : Matrix P P ℝ) (w : U → ℝ) (L : U → (P → ℝ) → ℝ) (x : P → ℝ)
    (extra : ℝ) : Prop :=
  ∃ s : U → P → ℝ, (∀ u, HasPartials (L u) (s u) x) ∧
    ∀ i j, H i j = -∑ u, w u * (s u i * s u j) + extra * (if i = j then 1 else 0)

end Spec

section Nested

variable {R O N K : Type} [Fintype R] [DecidableEq R] [Fintype O] [DecidableEq O] [Fintype N]
  [DecidableEq N] [Fintype K] [DecidableEq K] {f : R → O} {g : R → N} {c : O → R}
  {M : Matrix R O ℝ} {Q : Matrix R N ℝ}

/-- Weight one on the rows of an observation. -/
private def only (f : R → O) (o : O) : R → ℝ := fun r => if f r = o then 1 else 0

private lemma only_obs (f : R → O) (o : O) : ObsWeights f (some (only f o)) := by
  intro w e r s h
  cases e
  simp [only, h]

private lemma only_nonneg (f : R → O) (o : O) : NonnegWeights (some (only f o)) := by
  intro w e r
  cases e
  simp only [only]
  split_ifs <;> norm_num

/-- The row of scores of an observation is the gradient with weight one on that observation. -/
theorem nestedScores_row [Nonempty R] (hM : Indicates M f) {choice : R → ℝ}
    (hc : OneChoice f choice c) (X : Matrix R K ℝ) (raw : N → ℝ) (β : K → ℝ) (o : O) (jac : Bool) :
    nestedScores raw β X choice M Q jac o =
      calcNestedGradient raw β X choice M Q none (some (only f o)) jac := by
  have hwo : ∀ o', weightsPerObs M (only f o) o' = if o' = o then 1 else 0 := by
    intro o'
    have := weightsPerObs_eq hM (w := only f o) (fun r s h => by simp [only, h])
      (only_nonneg f o (only f o) rfl) (c o')
    rw [hc.mem] at this
    rw [this, only, hc.mem]
  have hrow : ∀ (x : R → ℝ), ∑ r, M r o * x r = ∑ r, x r * only f o r := by
    intro x
    refine Finset.sum_congr rfl fun r _ => ?_
    rw [hM r o, only, mul_comm]
  funext i
  rcases i with m | k
  · simp only [nestedScores, calcNestedGradient, Matrix.fromCols_apply_inl, Sum.elim_inl, Matrix.of_apply,
      defaultWeights, Option.getD_some, hwo]
    congr 1
    congr 1
    congr 1
    · simp
    · simp only [Matrix.mul_apply, transpose_apply, Matrix.of_apply, mulVec, dotProduct]
      rw [hrow fun r => Q r m * _]
      exact Finset.sum_congr rfl fun r _ => by ring
    · simp only [Matrix.mul_apply, transpose_apply, Matrix.of_apply, mulVec, dotProduct]
      rw [hrow fun r => Q r m * _]
      refine Finset.sum_congr rfl fun r _ => ?_
      simp only [nestTerm3b]
      ring
  · simp only [nestedScores, calcNestedGradient, Matrix.fromCols_apply_inr, Sum.elim_inr, Matrix.of_apply,
      defaultWeights, Option.getD_some]
    simp only [Matrix.mul_apply, transpose_apply, Matrix.of_apply, vecMul, dotProduct]
    rw [hrow fun r => _ * X r k]
    exact Finset.sum_congr rfl fun r _ => by ring

/-- The logarithm of the probability of the choice of an observation. -/
noncomputable def Spec.nestedChoiceLog (f : R → O) (g : R → N) (c : O → R) (X : Matrix R K ℝ) (o : O)
    (θ : N ⊕ K → ℝ) : ℝ :=
  Real.log (nestedProb f g (X *ᵥ fun k => θ (.inr k)) (logisticCoefs fun m => θ (.inl m)) (c o))

/-- **C84** (scores of the nested logit, exact): the scores the code uses are the derivatives of the log
probability of the observation's choice, plus `λ (1 - λ)` at every nest in which the observation has no
alternative. -/
theorem nested_score_exact [Nonempty R] (hM : Indicates M f) (hQ : Indicates Q g) {choice : R → ℝ}
    (hc : OneChoice f choice c) (X : Matrix R K ℝ) (θ : N ⊕ K → ℝ) (o : O) :
    HasPartials (nestedChoiceLog f g c X o)
      (fun i => nestedScores (fun m => θ (.inl m)) (fun k => θ (.inr k)) X choice M Q true o i -
        (Sum.elim (fun m => if m ∈ availNests f g o then 0 else
          logisticCoefs (fun m => θ (.inl m)) m * (1 - logisticCoefs (fun m => θ (.inl m)) m))
          (fun _ => 0) : N ⊕ K → ℝ) i) θ := by
  intro i
  have h := nested_gradient_exact hM hQ hc (only_obs f o) (only_nonneg f o) X θ i
  have e : ∀ θ, nestedObjective X M Q choice none (some (only f o)) θ = nestedChoiceLog f g c X o θ := by
    intro θ
    have h1 := sum_choice hc fun r => only f o r * Real.log (nestedProb f g (X *ᵥ fun k => θ (.inr k))
      (logisticCoefs fun m => θ (.inl m)) r)
    simp only [nestedObjective, calcNestedLogLikelihood, defaultWeights, Option.getD_some, nestedChoiceLog]
    have h2 : ∀ r, nestedLongProbs (naturalizeNestCoefs fun m => θ (.inl m)) (fun k => θ (.inr k)) X M Q r =
        nestedProb f g (X *ᵥ fun k => θ (.inr k)) (logisticCoefs fun m => θ (.inl m)) r := fun r => by
      rw [nestedLongProbs_eq hM hQ (naturalize_pos _), naturalize_eq_logistic]
    simp only [h2]
    rw [h1]
    simp [only, hc.mem]
  simp only [e] at h
  refine h.congr_deriv ?_
  rw [nestedScores_row hM hc]
  simp only [nestedObjectiveGradient]
  congr 1
  rcases i with m | k
  · simp only [emptyNestOffset, Sum.elim_inl, naturalize_eq_logistic, Finset.sum_filter, defaultWeights,
      Option.getD_some, only, hc.mem]
    by_cases hm : m ∈ availNests f g o
    · rw [if_pos hm, Finset.sum_eq_zero, mul_zero]
      intro o' _
      by_cases ho : o' = o
      · subst ho; simp [hm]
      · simp [ho]
    · rw [if_neg hm, Finset.sum_eq_single o]
      · simp [hm]
      · intro o' _ ho; simp [ho]
      · simp
  · simp [emptyNestOffset]

/-- **C84**, nested logit (partial: every observation has an alternative in every nest).  Missing: the other
data, for which the property is false (`nested_bhhh_wrong`). -/
theorem nested_bhhh_partial [Nonempty R] (hM : Indicates M f) (hQ : Indicates Q g) {choice : R → ℝ}
    (hc : OneChoice f choice c) {weights : Option (R → ℝ)} (hw : ObsWeights f weights)
    (hw0 : NonnegWeights weights) (hall : ∀ o m, ∃ r, f r = o ∧ g r = m) (X : Matrix R K ℝ)
    (θ : N ⊕ K → ℝ) (ridge : Option ℝ) :
    OuterProducts (calcNestedBHHH (fun m => θ (.inl m)) (fun k => θ (.inr k)) X choice M Q ridge weights true)
      (fun o => (weights.getD fun _ => 1) (c o)) (nestedChoiceLog f g c X) θ (-(2 * ridge.getD 0)) := by
  refine ⟨nestedScores (fun m => θ (.inl m)) (fun k => θ (.inr k)) X choice M Q true, fun o i => ?_, ?_⟩
  · refine (nested_score_exact hM hQ hc X θ o i).congr_deriv ?_
    rcases i with m | k
    · simp [mem_availNests.2 (hall o m)]
    · simp
  · intro i j
    have hwo : ∀ o, weightsPerObs M (defaultWeights weights) o = (weights.getD fun _ => 1) (c o) := by
      intro o
      conv_lhs => rw [← hc.mem o]
      rw [weightsPerObs_eq hM (obsWeights_default hw) (nonnegWeights_default hw0) (c o)]
      rfl
    have key : ∀ G : Matrix O (N ⊕ K) ℝ, (Gᵀ * Matrix.of fun o i =>
        weightsPerObs M (defaultWeights weights) o * G o i) i j =
        ∑ o, (weights.getD fun _ => 1) (c o) * (G o i * G o j) := by
      intro G
      simp only [Matrix.mul_apply, transpose_apply, Matrix.of_apply, hwo]
      exact Finset.sum_congr rfl fun o _ => by ring
    cases ridge with
    | none =>
      have h := key (nestedScores (fun m => θ (.inl m)) (fun k => θ (.inr k)) X choice M Q true)
      exact (congrArg (fun z => (-1 : ℝ) * z) h).trans (by simp)
    | some ρ =>
      have h := key (nestedScores (fun m => θ (.inl m)) (fun k => θ (.inr k)) X choice M Q true)
      change (-1 : ℝ) * (_ + (2 * ρ) * (1 : Matrix (N ⊕ K) (N ⊕ K) ℝ) i j) = _
      rw [h, Matrix.one_apply]
      simp only [Option.getD_some]
      ring

/-- The probabilities of an observation do not depend on the coefficients of nests it does not have. -/
theorem nestedProb_avail_congr {V : R → ℝ} {lam lam' : N → ℝ} {r : R}
    (h : ∀ m ∈ availNests f g (f r), lam m = lam' m) : nestedProb f g V lam r = nestedProb f g V lam' r := by
  have hs : ∀ m ∈ availNests f g (f r), nestSum f g V lam (f r) m = nestSum f g V lam' (f r) m :=
    fun m hm => by simp only [nestSum, h m hm]
  have hg : g r ∈ availNests f g (f r) := own_avail f g r
  simp only [nestedProb, nestProb, condProb]
  rw [hs _ hg, h _ hg]
  congr 2
  exact Finset.sum_congr rfl fun m hm => by rw [hs m hm, h m hm]

/-- **C84** (negation): in data where an observation with positive weight has no alternative in a nest, the
diagonal entry of that nest is not the weighted sum of the squared scores. -/
theorem nested_bhhh_wrong [Nonempty R] (hM : Indicates M f) (hQ : Indicates Q g) {choice : R → ℝ}
    (hc : OneChoice f choice c) {weights : Option (R → ℝ)} (hw : ObsWeights f weights)
    (hw0 : NonnegWeights weights) (X : Matrix R K ℝ) (θ : N ⊕ K → ℝ) {o : O} {m : N}
    (hpos : 0 < (weights.getD fun _ => 1) (c o)) (hm : ∀ r, f r = o → g r ≠ m) :
    ¬ OuterProducts (calcNestedBHHH (fun m => θ (.inl m)) (fun k => θ (.inr k)) X choice M Q none weights true)
      (fun o => (weights.getD fun _ => 1) (c o)) (nestedChoiceLog f g c X) θ 0 := by
  rintro ⟨s, hs, hij⟩
  set S := nestedScores (fun m => θ (.inl m)) (fun k => θ (.inr k)) X choice M Q true with hS
  have hwo : ∀ o, weightsPerObs M (defaultWeights weights) o = (weights.getD fun _ => 1) (c o) := by
    intro o
    conv_lhs => rw [← hc.mem o]
    rw [weightsPerObs_eq hM (obsWeights_default hw) (nonnegWeights_default hw0) (c o)]
    rfl
  set lam := logisticCoefs (fun m => θ (.inl m)) m with hlam
  have hl1 : 0 < lam := by rw [hlam, ← naturalize_eq_logistic]; exact naturalize_pos _ m
  have hl2 : lam < 1 := by rw [hlam, ← naturalize_eq_logistic]; exact naturalize_lt_one _ m
  have hno : m ∉ availNests f g o := fun h => by
    obtain ⟨r, h1, h2⟩ := mem_availNests.1 h
    exact hm r h1 h2
  have hd := hij (.inl m) (.inl m)
  have hB : calcNestedBHHH (fun m => θ (.inl m)) (fun k => θ (.inr k)) X choice M Q none weights true
      (.inl m) (.inl m) = -∑ o, (weights.getD fun _ => 1) (c o) * (S o (.inl m) * S o (.inl m)) := by
    simp only [calcNestedBHHH, Matrix.smul_apply, Matrix.mul_apply, transpose_apply, Matrix.of_apply, hwo,
      smul_eq_mul, neg_one_mul]
    congr 1
    exact Finset.sum_congr rfl fun o _ => by rw [← hS]; ring
  have hsS : ∀ o', s o' (.inl m) = S o' (.inl m) - if m ∈ availNests f g o' then 0 else lam * (1 - lam) :=
    fun o' => (hs o' (.inl m)).unique (nested_score_exact hM hQ hc X θ o' (.inl m))
  -- the true score at a nest the observation does not have is zero
  have hs0 : ∀ o', m ∉ availNests f g o' → s o' (.inl m) = 0 := by
    intro o' ho'
    refine (hs o' (.inl m)).unique ?_
    have hconst : ∀ t, nestedChoiceLog f g c X o' (update θ (.inl m) t) = nestedChoiceLog f g c X o' θ := by
      intro t
      simp only [nestedChoiceLog]
      have e1 : (fun k => update θ (Sum.inl m) t (Sum.inr k)) = fun k => θ (.inr k) := by
        funext k; simp
      rw [e1, nestedProb_avail_congr (lam' := logisticCoefs fun m => θ (.inl m))]
      intro m' hm'
      rw [hc.mem] at hm'
      have : m' ≠ m := fun h => ho' (h ▸ hm')
      simp [logisticCoefs, this]
    simp only [hconst]
    exact hasDerivAt_const _ _
  rw [hB] at hd
  have hterm : ∀ o', (weights.getD fun _ => 1) (c o') * (S o' (.inl m) * S o' (.inl m)) =
      (weights.getD fun _ => 1) (c o') * (s o' (.inl m) * s o' (.inl m)) +
        (weights.getD fun _ => 1) (c o') * (if m ∈ availNests f g o' then 0 else (lam * (1 - lam)) ^ 2) := by
    intro o'
    have h1 := hsS o'
    by_cases ho : m ∈ availNests f g o'
    · rw [if_pos ho] at h1 ⊢
      rw [h1]; ring
    · rw [if_neg ho] at h1 ⊢
      have h2 := hs0 o' ho
      have h3 : S o' (.inl m) = lam * (1 - lam) := by linarith
      rw [h2, h3]; ring
  have hnn : ∀ o', 0 ≤ (weights.getD fun _ => 1) (c o') := by
    intro o'
    cases weights with
    | none => simp
    | some w => exact hw0 w rfl _
  have hq : 0 < ∑ o', (weights.getD fun _ => 1) (c o') *
      (if m ∈ availNests f g o' then 0 else (lam * (1 - lam)) ^ 2) := by
    have h0 : 0 < lam * (1 - lam) := mul_pos hl1 (by linarith)
    refine Finset.sum_pos' (fun o' _ => mul_nonneg (hnn o') (by split_ifs <;> positivity))
      ⟨o, Finset.mem_univ o, ?_⟩
    rw [if_neg hno]
    positivity
  rw [Finset.sum_congr rfl fun o' _ => hterm o', Finset.sum_add_distrib] at hd
  simp only [if_true, zero_mul, add_zero] at hd
  linarith

end Nested

section Mixed

variable {R O M D P : Type} [Fintype R] [DecidableEq R] [Fintype O] [DecidableEq O] [Fintype M]
  [DecidableEq M] [Fintype D] [Fintype P] [DecidableEq P]

/-- The logarithm of the simulated probability of the choices of an individual. -/
noncomputable def Spec.simulatedChoiceLog (f : R → O) (g : R → M) (choice : R → ℝ) (X : R → D → P → ℝ)
    (m : M) (θ : P → ℝ) : ℝ :=
  Real.log (average fun d => sequenceProb g choice (clippedLogit f fun r => ∑ q, X r d q * θ q) m)

/-- **C84**, mixed logit: the BHHH matrix is minus the weighted sum of the outer products of the individual
scores.  The ridge penalty is added with the wrong sign: `+ 2 ridge` (see C41). -/
theorem mixed_bhhh [Nonempty R] [Nonempty D] {B : Matrix R O ℝ} {f : R → O} (hB : Indicates B f)
    {C : Matrix R M ℝ} {g : R → M} (hC : Indicates C g) (hfg : PanelData f g) {choice : R → ℝ} {c : O → R}
    (hc : OneChoice f choice c) {weights : Option (R → ℝ)} (hw : ObsWeights g weights)
    (hw0 : NonnegWeights weights) {first : M → R} (hfirst : ∀ m, g (first m) = m) (θ : P → ℝ)
    (X : R → D → P → ℝ) (ridge : Option ℝ) (hb : ∀ r d, |∑ q, X r d q * θ q| < 700) :
    OuterProducts (mixedBHHH θ X B C choice ridge weights) (fun m => (weights.getD fun _ => 1) (first m))
      (simulatedChoiceLog f g choice X) θ (2 * ridge.getD 0) := by
  have hy : ZeroOne choice := fun r => by
    by_cases h : r = c (f r)
    · right; rw [h]; exact hc.one _
    · left; exact hc.zero r h
  have hwo : ∀ m, weightsPerObs C (defaultWeights weights) m = (weights.getD fun _ => 1) (first m) := by
    intro m
    conv_lhs => rw [← hfirst m]
    rw [weightsPerObs_eq hC (obsWeights_default hw) (nonnegWeights_default hw0) (first m)]
    rfl
  refine ⟨mixedScores θ X B C choice, fun m q => ?_, fun i j => ?_⟩
  · have h := mixed_gradient hB hC hfg hc (only_obs g m) (only_nonneg g m) θ X none hb q
    have e : ∀ θ, mixedLogLikelihood θ X B C choice none (some (only g m)) =
        simulatedChoiceLog f g choice X m θ := by
      intro θ
      rw [mixed_loglik_formula hB hC hy (only_obs g m) (only_nonneg g m) hfirst]
      simp only [kernelProbs, longProbs_eq_clippedLogit hB, simulatedChoiceLog, Option.getD_some, only, hfirst]
      simp
    simp only [e] at h
    refine h.congr_deriv ?_
    simp only [mixedGradient, mixedScores, ridgeGrad, drawMean_eq, average, Matrix.mul_apply, transpose_apply,
      Matrix.of_apply, hC _ _, defaultWeights, Option.getD_some, only]
    simp only [ite_mul, one_mul, zero_mul, mul_ite, mul_one, mul_zero]
    rw [Finset.sum_comm, Finset.mul_sum]
    refine Finset.sum_congr rfl fun r _ => ?_
    split_ifs <;> simp
  · have key : ∀ G : Matrix M P ℝ, (Gᵀ * Matrix.of fun m q =>
        weightsPerObs C (defaultWeights weights) m * G m q) i j =
        ∑ m, (weights.getD fun _ => 1) (first m) * (G m i * G m j) := by
      intro G
      simp only [Matrix.mul_apply, transpose_apply, Matrix.of_apply, hwo]
      exact Finset.sum_congr rfl fun o _ => by ring
    cases ridge with
    | none =>
      have h := key (mixedScores θ X B C choice)
      exact (congrArg (fun z => (-1 : ℝ) * z) h).trans (by simp)
    | some ρ =>
      have h := key (mixedScores θ X B C choice)
      change (-1 : ℝ) * (_ - (2 * ρ) * (1 : Matrix P P ℝ) i j) = _
      rw [h, Matrix.one_apply]
      simp only [Option.getD_some]
      ring

end Mixed

/-! ## Non-vacuity -/

example (θ : Fin 2 ⊕ Fin 1 → ℝ) :
    OuterProducts (calcNestedBHHH (fun m => θ (.inl m)) (fun k => θ (.inr k))
      (!![1; 2; 3; 4; 5] : Matrix (Fin 5) (Fin 1) ℝ) exNestChoice
      (fun r o => if exNestObs r = o then 1 else 0) (fun r m => if exNest r = m then 1 else 0) (some 0.5)
      none true)
      (fun _ => 1) (nestedChoiceLog exNestObs exNest ![1, 4] !![1; 2; 3; 4; 5]) θ (-(2 * 0.5)) :=
  nested_bhhh_partial (f := exNestObs) (g := exNest) (c := ![1, 4]) (fun _ _ => rfl) (fun _ _ => rfl)
    exNest_oneChoice (fun w e => by cases e) (fun w e => by cases e) exNest_all _ θ (some 0.5)

example (θ : Fin 2 ⊕ Fin 1 → ℝ) :
    ¬ OuterProducts (calcNestedBHHH (fun m => θ (.inl m)) (fun k => θ (.inr k))
      (!![1; 2; 3] : Matrix (Fin 3) (Fin 1) ℝ) exChoice exM
      (fun r m => if (![0, 1, 0] : Fin 3 → Fin 2) r = m then 1 else 0) none none true)
      (fun _ => 1) (nestedChoiceLog exObs ![0, 1, 0] ![1, 2] !![1; 2; 3]) θ 0 :=
  nested_bhhh_wrong (f := exObs) (g := ![0, 1, 0]) (c := ![1, 2]) (o := 1) (m := 1) exM_indicates
    (fun _ _ => rfl) exOneChoice (fun w e => by cases e) (fun w e => by cases e) _ θ (by simp) (by decide)

example : OuterProducts (mixedBHHH (D := Fin 2) (P := Fin 1) (fun _ => 0)
      (fun (r : Fin 3) (d : Fin 2) _ => ((r : ℕ) : ℝ) - (d : ℕ)) exM exM exChoice (some 0.5) (some fun _ => 2))
    (fun _ => 2) (simulatedChoiceLog exObs exObs exChoice
      (fun (r : Fin 3) (d : Fin 2) _ => ((r : ℕ) : ℝ) - (d : ℕ))) (fun _ => 0) (2 * 0.5) :=
  mixed_bhhh (first := ![0, 2]) exM_indicates exM_indicates (fun _ _ h => h) exOneChoice
    (by intro w h; cases h; simp) (by intro w h; cases h; simp) (by intro m; fin_cases m <;> rfl)
    _ _ (some 0.5) (by simp)

end Pylogit
