import Verif.Lemmas.NestedGradient
import Verif.Props.Probabilities
import Verif.Props.Concavity

/-!
# C36-C42: the nested logit
-/

set_option linter.unusedSectionVars false

open Finset Matrix Function

namespace Pylogit

open Spec

variable {R O K N : Type} [Fintype R] [DecidableEq R] [Fintype O] [Fintype K] [Fintype N] [DecidableEq O]
  [DecidableEq N] {M : Matrix R O ℝ} {f : R → O} {Q : Matrix R N ℝ} {g : R → N}

/-- The long-format probabilities contained in a result, if any. -/
def Spec.nestedLongPart : NestedResult R O N → Option (R → ℝ)
  | .both _ l => some l
  | .long l => some l
  | .chosen _ => none
  | .dict d => some d.longProbs

/-- The chosen-row probabilities contained in a result, if any. -/
def Spec.nestedChosenPart : NestedResult R O N → Option (O → ℝ)
  | .both c _ => some c
  | .long _ => none
  | .chosen c => some c
  | .dict d => d.chosenProbs

/-! ## C36, C37, C70 -/

theorem nested_ok_cases {lam : N → ℝ} {β : K → ℝ} {X : Matrix R K ℝ} {C : Option (Matrix R O ℝ)}
    {rt : String} {res : NestedResult R O N}
    (h : calcNestedProbs lam β X M Q C rt = .ok res) :
    (∀ lp, nestedLongPart res = some lp → lp = nestedLongProbs lam β X M Q) ∧
    (∀ cp, nestedChosenPart res = some cp → ∃ c, C = some c ∧ cp = nestedChosenProbs lam β X M Q c) ∧
    (∀ d, res = .dict d → d.probGivenNest = probGivenNest lam β X M Q ∧
      d.nestChoiceProbs = nestChoiceProbs lam β X M Q ∧
      d.indSumsPerNest = indExpSumsPerNest lam β X M Q) := by
  unfold calcNestedProbs at h
  split_ifs at h with h1 h2 h3 h4 h5
  · cases h
    refine ⟨fun lp e => (Option.some.inj e).symm, fun cp e => ?_, fun d e => ?_⟩
    · cases C with
      | none => simp [nestedChosenPart] at e
      | some c => exact ⟨c, rfl, by simpa [nestedChosenPart] using e.symm⟩
    · cases e; exact ⟨rfl, rfl, rfl⟩
  · cases h
    exact ⟨fun lp e => (Option.some.inj e).symm, fun cp e => (by cases e), fun d e => (by cases e)⟩
  · cases C with
    | none => simp at h
    | some c =>
      cases h
      exact ⟨fun lp e => (by cases e), fun cp e => ⟨c, rfl, (Option.some.inj e).symm⟩,
        fun d e => (by cases e)⟩
  · cases C with
    | none => simp at h
    | some c =>
      cases h
      exact ⟨fun lp e => (Option.some.inj e).symm,
        fun cp e => ⟨c, rfl, (Option.some.inj e).symm⟩, fun d e => (by cases e)⟩

/-- **C36** (formula). Every long probability `calc_nested_probs` returns is the textbook nested
logit probability, for any positive nest coefficients and any pattern of unavailable nests. -/
theorem nested_probabilities_formula (hM : Indicates M f) (hQ : Indicates Q g) {lam : N → ℝ}
    (hl : ∀ m, 0 < lam m) {β : K → ℝ} {X : Matrix R K ℝ} {C : Option (Matrix R O ℝ)} {rt : String}
    {res : NestedResult R O N} {lp : R → ℝ} (h : calcNestedProbs lam β X M Q C rt = .ok res)
    (hlp : nestedLongPart res = some lp) (r : R) :
    lp r = nestedProb f g (X *ᵥ β) lam r := by
  rw [(nested_ok_cases h).1 lp hlp, nestedLongProbs_eq hM hQ hl]

/-- **C36**. The long probabilities lie in (0, 1] and sum to one over every observation. -/
theorem nested_probabilities_valid (hM : Indicates M f) (hQ : Indicates Q g) {lam : N → ℝ}
    (hl : ∀ m, 0 < lam m) {β : K → ℝ} {X : Matrix R K ℝ} {C : Option (Matrix R O ℝ)} {rt : String}
    {res : NestedResult R O N} {lp : R → ℝ} (h : calcNestedProbs lam β X M Q C rt = .ok res)
    (hlp : nestedLongPart res = some lp) :
    (∀ r, 0 < lp r ∧ lp r ≤ 1) ∧ ∀ o, (∃ r, f r = o) → ∑ r ∈ rowsOf f o, lp r = 1 := by
  have e := nested_probabilities_formula hM hQ hl h hlp
  have hs : ∀ o, (∃ r, f r = o) → ∑ r ∈ rowsOf f o, lp r = 1 := by
    rintro o ⟨r, rfl⟩
    simp only [e]
    exact nestedProb_sum f g _ lam r
  refine ⟨fun r => ⟨?_, ?_⟩, hs⟩
  · rw [e]; exact nestedProb_pos f g _ lam r
  · rw [← hs (f r) ⟨r, rfl⟩]
    refine Finset.single_le_sum (f := lp) (fun s _ => ?_) (mem_rowsOf.2 rfl)
    rw [e]; exact (nestedProb_pos f g _ lam s).le

/-- **C37**. The dictionary's probabilities factor: long probability = probability of the row's nest
times the conditional probability; conditional probabilities sum to one within each nonempty
(observation, nest); nest probabilities sum to one over the nests available to the observation. -/
theorem nested_factorisation (hM : Indicates M f) (hQ : Indicates Q g) {lam : N → ℝ}
    (hl : ∀ m, 0 < lam m) {β : K → ℝ} {X : Matrix R K ℝ} {C : Option (Matrix R O ℝ)} {rt : String}
    {d : NestedProbDict R O N} (h : calcNestedProbs lam β X M Q C rt = .ok (.dict d)) :
    (∀ r, d.longProbs r = d.nestChoiceProbs (f r) (g r) * d.probGivenNest r) ∧
    (∀ o m, m ∈ availNests f g o → ∑ r ∈ nestRows f g o m, d.probGivenNest r = 1) ∧
    (∀ r, ∑ m ∈ availNests f g (f r), d.nestChoiceProbs (f r) m = 1) ∧
    (∀ r m, m ∉ availNests f g (f r) → d.nestChoiceProbs (f r) m = minCompValue) := by
  obtain ⟨h1, -, h3⟩ := nested_ok_cases h
  obtain ⟨e1, e2, -⟩ := h3 d rfl
  have e0 := h1 d.longProbs rfl
  refine ⟨fun r => ?_, fun o m hm => ?_, fun r => ?_, fun r m hm => ?_⟩
  · rw [e0, e1, e2, nestedLongProbs_eq hM hQ hl, nestChoiceProbs_eq hM hQ hl,
      if_pos (own_avail f g r), probGivenNest_eq hM hQ]
    rfl
  · simp only [e1, probGivenNest_eq hM hQ]
    exact condProb_sum _ _ hm
  · rw [e2]
    refine Eq.trans (Finset.sum_congr rfl fun m hm => ?_) (nestProb_sum f g (X *ᵥ β) lam r)
    rw [nestChoiceProbs_eq hM hQ hl, if_pos hm]
  · rw [e2, nestChoiceProbs_eq hM hQ hl, if_neg hm]

/-- **C37** (unit coefficients). With all nest coefficients 1 the probabilities are the logit
probabilities. -/
theorem nested_unit_coefs (hM : Indicates M f) (hQ : Indicates Q g) {β : K → ℝ} {X : Matrix R K ℝ}
    {C : Option (Matrix R O ℝ)} {rt : String} {res : NestedResult R O N} {lp : R → ℝ}
    (h : calcNestedProbs (fun _ : N => 1) β X M Q C rt = .ok res)
    (hlp : nestedLongPart res = some lp) (r : R) : lp r = logitProb f (X *ᵥ β) r := by
  rw [nested_probabilities_formula hM hQ (fun _ => one_pos) h hlp, nestedProb, nestProb, condProb,
    logitProb, sum_by_nests f g]
  have hS := nestSum_pos (X *ᵥ β) (fun _ : N => (1 : ℝ)) (own_avail f g r)
  simp only [Real.rpow_one, div_one]
  have : ∀ m, nestSum f g (X *ᵥ β) (fun _ => 1) (f r) m =
      ∑ s ∈ nestRows f g (f r) m, Real.exp ((X *ᵥ β) s) := fun m => by simp [nestSum]
  rw [← Finset.sum_congr rfl fun m _ => this m]
  have hD : 0 < ∑ m ∈ availNests f g (f r), nestSum f g (X *ᵥ β) (fun _ => 1) (f r) m :=
    Finset.sum_pos (fun _ hm => nestSum_pos _ _ hm) ⟨_, own_avail f g r⟩
  field_simp

/-- **C37** (unit coefficients, against the MNL function). When no utility exceeds 700 in absolute
value this equals what `calc_probabilities` returns for the MNL. -/
theorem nested_unit_coefs_mnl {ι A S I : Type} (hM : Indicates M f) (hQ : Indicates Q g) {β : K → ℝ}
    {X : Matrix R K ℝ} {C : Option (Matrix R O ℝ)} {rt : String} {res : NestedResult R O N}
    {lp : R → ℝ} (h : calcNestedProbs (fun _ : N => 1) β X M Q C rt = .ok res)
    (hlp : nestedLongPart res = some lp) (ids : R → ι) (rta : Matrix R A ℝ)
    (hb : ∀ r, |(X *ᵥ β) r| ≤ 700) (r : R) :
    lp r = modelProbs (S := S) (I := I) β X ids M rta (fun v _ _ _ _ => v) none none r := by
  rw [nested_unit_coefs hM hQ h hlp]
  exact (longProbs_eq_logitProb hM r fun s _ => hb s).symm

/-- **C70** (errors). `calc_nested_probs` raises `ValueError` exactly for an unknown return type or
when chosen probabilities are requested without `chosen_row_to_obs`; otherwise the result has the
parts asked for. -/
theorem calcNestedProbs_contract (lam : N → ℝ) (β : K → ℝ) (X : Matrix R K ℝ)
    (C : Option (Matrix R O ℝ)) (rt : String) :
    (calcNestedProbs lam β X M Q C rt = .error .valueError ↔
      rt ∉ ["long_probs", "chosen_probs", "long_and_chosen_probs", "all_prob_dict"] ∨
      (C = none ∧ (rt = "chosen_probs" ∨ rt = "long_and_chosen_probs"))) ∧
    (∀ e, calcNestedProbs lam β X M Q C rt = .error e → e = .valueError) ∧
    (∀ res, calcNestedProbs lam β X M Q C rt = .ok res →
      ((nestedLongPart res).isSome ↔ rt ≠ "chosen_probs") ∧
      ((nestedChosenPart res).isSome ↔ C ≠ none ∧ rt ≠ "long_probs")) := by
  unfold calcNestedProbs
  by_cases h1 : rt ∈ ["long_probs", "chosen_probs", "long_and_chosen_probs", "all_prob_dict"]
  · simp only [List.mem_cons, List.not_mem_nil, or_false] at h1
    rcases h1 with rfl | rfl | rfl | rfl <;> cases C <;>
      simp [nestedLongPart, nestedChosenPart]
  · have h2 := h1
    simp only [List.mem_cons, List.not_mem_nil, or_false, not_or] at h2
    rw [if_pos h1]
    simp [h2]

/-- **C70** (chosen rows). With `chosen_row_to_obs` built from the choice column, the chosen
probability of an observation is the nested logit probability of its chosen row. -/
theorem nested_chosen_probability (hM : Indicates M f) (hQ : Indicates Q g) {lam : N → ℝ}
    (hl : ∀ m, 0 < lam m) {β : K → ℝ} {X : Matrix R K ℝ} {C : Matrix R O ℝ} {rt : String}
    {res : NestedResult R O N} {cp : O → ℝ} {choice : R → ℝ} {c : O → R}
    (hc : OneChoice f choice c) (hC : ∀ r o, C r o = M r o * choice r)
    (h : calcNestedProbs lam β X M Q (some C) rt = .ok res)
    (hcp : nestedChosenPart res = some cp) (o : O) :
    cp o = nestedProb f g (X *ᵥ β) lam (c o) := by
  obtain ⟨C', e, rfl⟩ := (nested_ok_cases h).2.1 cp hcp
  cases e
  simp only [nestedChosenProbs, mulVec, dotProduct, transpose_apply, hC, hM _ _]
  rw [Finset.sum_eq_single (c o)]
  · simp [hc.mem, hc.one, nestedLongProbs_eq hM hQ hl]
  · intro r _ hr
    by_cases hf : f r = o
    · simp [hc.zero r (by rw [hf]; exact hr)]
    · simp [hf]
  · simp

/-! ## C40 -/

/-- **C40**. Natural nest coefficients lie in (0,1), increase strictly with the raw value, complement
under negation, and depend only on their own raw value. -/
theorem naturalize_spec (raw raw' : N → ℝ) (m : N) :
    (0 < naturalizeNestCoefs raw m ∧ naturalizeNestCoefs raw m < 1) ∧
    (raw m < raw' m ↔ naturalizeNestCoefs raw m < naturalizeNestCoefs raw' m) ∧
    naturalizeNestCoefs (fun m => -raw m) m = 1 - naturalizeNestCoefs raw m ∧
    (raw m = Real.log (naturalizeNestCoefs raw m / (1 - naturalizeNestCoefs raw m))) := by
  refine ⟨⟨naturalize_pos raw m, naturalize_lt_one raw m⟩, ?_, ?_, ?_⟩
  · rw [naturalize_eq, naturalize_eq, one_div_lt_one_div (by positivity) (by positivity)]
    constructor
    · intro h
      have := Real.exp_lt_exp.2 (neg_lt_neg h)
      linarith
    · intro h
      have : Real.exp (-raw' m) < Real.exp (-raw m) := by linarith
      have := Real.exp_lt_exp.1 this
      linarith
  · rw [naturalize_eq, naturalize_eq, neg_neg, Real.exp_neg]
    have := Real.exp_pos (raw m)
    field_simp
    ring
  · rw [naturalize_eq]
    have h : (1 / (1 + Real.exp (-raw m))) / (1 - 1 / (1 + Real.exp (-raw m))) =
        Real.exp (raw m) := by
      rw [Real.exp_neg]
      have := Real.exp_pos (raw m)
      field_simp
      ring
    rw [h, Real.log_exp]

/-! ## C38, C39 -/

/-- The log-likelihood as a function of the raw parameter vector (raw nest coefficients, then index
coefficients), as `NestedEstimator.convenience_calc_log_likelihood` computes it
(nested_logit.py:258-275). -/
noncomputable def nestedObjective (X : Matrix R K ℝ) (M : Matrix R O ℝ) (Q : Matrix R N ℝ)
    (choice : R → ℝ) (ridge : Option ℝ) (weights : Option (R → ℝ)) (θ : N ⊕ K → ℝ) : ℝ :=
  calcNestedLogLikelihood (naturalizeNestCoefs fun m => θ (.inl m)) (fun k => θ (.inr k)) X M Q
    choice ridge weights

/-- The gradient at a raw parameter vector, as `NestedEstimator.convenience_calc_gradient` computes
it (nested_logit.py:277-290). -/
noncomputable def nestedObjectiveGradient [Nonempty R] (X : Matrix R K ℝ) (M : Matrix R O ℝ)
    (Q : Matrix R N ℝ) (choice : R → ℝ) (ridge : Option ℝ) (weights : Option (R → ℝ))
    (θ : N ⊕ K → ℝ) : N ⊕ K → ℝ :=
  calcNestedGradient (fun m => θ (.inl m)) (fun k => θ (.inr k)) X choice M Q ridge weights true

/-- The spurious amount the code adds to the gradient of nest `m`: the total weight of the
observations that have no alternative in nest `m`, times the derivative of the natural nest
coefficient. -/
noncomputable def Spec.emptyNestOffset (f : R → O) (g : R → N) (c : O → R) (w : R → ℝ)
    (raw : N → ℝ) : N ⊕ K → ℝ
  | .inl m => naturalizeNestCoefs raw m * (1 - naturalizeNestCoefs raw m) *
      ∑ o with m ∉ availNests f g o, w (c o)
  | .inr _ => 0

theorem spurious_unit : (0 - minCompValue) * (-1 * maxCompValue) = 1 := by
  unfold minCompValue maxCompValue
  rw [zero_sub, neg_one_mul, neg_mul_neg, inv_mul_cancel₀ (by positivity)]

/-- **C38** (exact). For every dataset the code's gradient is the derivative of the log-likelihood
plus the offset described above. -/
theorem nested_gradient_exact [Nonempty R] [DecidableEq K] (hM : Indicates M f) (hQ : Indicates Q g)
    {choice : R → ℝ} {c : O → R} (hc : OneChoice f choice c) {weights : Option (R → ℝ)}
    (hw : ObsWeights f weights) (hw0 : NonnegWeights weights) (X : Matrix R K ℝ) (θ : N ⊕ K → ℝ) :
    HasPartials (nestedObjective X M Q choice none weights)
      (fun i => nestedObjectiveGradient X M Q choice none weights θ i -
        emptyNestOffset f g c (defaultWeights weights) (fun m => θ (.inl m)) i) θ := by
  set w := defaultWeights weights with hwdef
  have hww := obsWeights_default hw
  set raw : N → ℝ := fun m => θ (.inl m) with hraw
  set β : K → ℝ := fun k => θ (.inr k) with hβ
  set lam := naturalizeNestCoefs raw with hlam
  have hlpos : ∀ m, 0 < lam m := naturalize_pos raw
  have hwo : ∀ o, weightsPerObs M w o = w (c o) := by
    intro o
    conv_lhs => rw [← hc.mem o]
    exact weightsPerObs_eq hM hww (nonnegWeights_default hw0) (c o)
  have hobj : ∀ θ : N ⊕ K → ℝ, nestedObjective X M Q choice none weights θ =
      ∑ r, choice r * (w r * Real.log (nestedProb f g (X *ᵥ fun k => θ (.inr k))
        (naturalizeNestCoefs fun m => θ (.inl m)) r)) := by
    intro θ
    simp only [nestedObjective, calcNestedLogLikelihood]
    refine Finset.sum_congr rfl fun r _ => ?_
    rw [nestedLongProbs_eq hM hQ (naturalize_pos _)]
  have hstep : ∀ r, dScaled g (X *ᵥ β) 0 lam 0 r = 0 := fun r => by simp [dScaled]
  -- names for the code's vectors
  have v1 : ∀ r, (prepVectors lam β X choice M Q).longNestParams r = lam (g r) :=
    longNestCoefs_eq hQ lam
  have v2 : ∀ r, (prepVectors lam β X choice M Q).probGivenNest r = condProb f g (X *ᵥ β) lam r :=
    probGivenNest_eq hM hQ lam β X
  have v3 : ∀ r, (prepVectors lam β X choice M Q).longProbs r = nestedProb f g (X *ᵥ β) lam r :=
    nestedLongProbs_eq hM hQ hlpos β X
  have v4 : ∀ r, (prepVectors lam β X choice M Q).longChosenNest r =
      if g (c (f r)) = g r then 1 else 0 := longChosenNest_eq hM hQ hc
  have v5 : ∀ o m, (prepVectors lam β X choice M Q).obsToChosenNests o m =
      if g (c o) = m then 1 else 0 := obsToChosenNests_eq hM hQ hc
  have v6 : ∀ o m, (prepVectors lam β X choice M Q).nestChoiceProbs o m =
      if m ∈ availNests f g o then nestProb f g (X *ᵥ β) lam o m else minCompValue := by
    intro o m
    have := nestChoiceProbs_eq hM hQ hlpos β X (c o) m
    rwa [hc.mem o] at this
  have v7 : ∀ o m, (prepVectors lam β X choice M Q).indSumsPerNest o m =
      nestSum f g (X *ᵥ β) lam o m := indExpSums_eq hM hQ lam β X
  have v8 : ∀ r, (prepVectors lam β X choice M Q).longW r = (X *ᵥ β) r / lam (g r) := fun r => by
    simp only [prepVectors]; rw [longNestCoefs_eq hQ]
  have v9 : ∀ r, (prepVectors lam β X choice M Q).scaledY r = choice r / lam (g r) := fun r => by
    simp only [prepVectors]; rw [longNestCoefs_eq hQ]
  have v10 : ∀ r, (prepVectors lam β X choice M Q).pTildeGivenNest r =
      condProb f g (X *ᵥ β) lam r * (if g (c (f r)) = g r then 1 else 0) / lam (g r) := fun r => by
    simp only [prepVectors]
    rw [longNestCoefs_eq hQ, probGivenNest_eq hM hQ, longChosenNest_eq hM hQ hc]
  rintro (m | k)
  · -- raw nest coefficient
    have hcurve := nested_ll_hasDerivAt (f := f) (g := g) (V := fun _ => X *ᵥ β) (V' := 0)
      (lam := fun t => naturalizeNestCoefs (update raw m t))
      (lam' := fun m' => if m' = m then lam m * (1 - lam m) else 0) (t := θ (.inl m)) hc hww
      (fun u m' => naturalize_pos _ m') (fun r => hasDerivAt_const _ _)
      (fun m' => naturalize_hasDerivAt raw m m')
    have hupd : update raw m (θ (Sum.inl m)) = raw := by simp [hraw]
    simp only [hupd] at hcurve
    have hfun : (fun t => nestedObjective X M Q choice none weights (update θ (Sum.inl m) t)) =
        fun t => ∑ r, choice r * (w r * Real.log (nestedProb f g (X *ᵥ β)
          (naturalizeNestCoefs (update raw m t)) r)) := by
      funext t
      rw [hobj]
      have e1 : (fun k => update θ (Sum.inl m) t (Sum.inr k)) = β := by funext k; simp [hβ]
      have e2 : (fun m' => update θ (Sum.inl m) t (Sum.inl m')) = update raw m t := by
        funext m'
        by_cases h : m' = m
        · subst h; simp
        · simp [h, hraw]
      rw [e1, e2]
    rw [hfun]
    refine hcurve.congr_deriv ?_
    -- compare with the code
    simp only [nestedObjectiveGradient, calcNestedGradient, Sum.elim_inl, emptyNestOffset,
      nestJacobian, if_true]
    simp only [← hlam, ← hwdef, ← hβ]
    have hterm1 : ∑ o, nestTerm1 (prepVectors lam β X choice M Q) o m * weightsPerObs M w o =
        ∑ o, w (c o) * (((if g (c o) = m then 1 else 0) -
          if m ∈ availNests f g o then nestProb f g (X *ᵥ β) lam o m else 0) *
            Real.log (nestSum f g (X *ᵥ β) lam o m)) +
        ∑ o with m ∉ availNests f g o, w (c o) := by
      rw [Finset.sum_filter, ← Finset.sum_add_distrib]
      refine Finset.sum_congr rfl fun o _ => ?_
      rw [nestTerm1, Matrix.of_apply, v5, v6, v7, hwo, logExpSum]
      by_cases ha : m ∈ availNests f g o
      · rw [if_pos ha, if_pos ha, if_neg (nestSum_pos _ _ ha).ne', if_neg (not_not.2 ha)]
        ring
      · have hne : g (c o) ≠ m := by
          rintro rfl
          exact ha (by simpa [hc.mem] using own_avail f g (c o))
        rw [if_neg ha, if_neg ha, if_neg hne, nestSum_eq_zero _ _ ha, if_pos rfl, if_pos ha,
          spurious_unit]
        simp
    have hrow : ∀ x : R → ℝ, (Qᵀ *ᵥ x) m = ∑ r, if g r = m then x r else 0 := by
      intro x
      simp only [mulVec, dotProduct, transpose_apply, hQ _ _, ite_mul, one_mul, zero_mul]
    have hterm23 : (Qᵀ *ᵥ fun r => halfDeriv (prepVectors lam β X choice M Q) r * w r) m +
        (Qᵀ *ᵥ nestTerm3b (prepVectors lam β X choice M Q) choice w) m =
        ∑ r, if g r = m then w r * ((choice r + (if g (c (f r)) = g r then 1 else 0) *
          (lam (g r) - 1) * condProb f g (X *ᵥ β) lam r - nestedProb f g (X *ᵥ β) lam r * lam (g r)) *
            (-((X *ᵥ β) r) / lam (g r) ^ 2)) else 0 := by
      rw [hrow, hrow, ← Finset.sum_add_distrib]
      refine Finset.sum_congr rfl fun r _ => ?_
      by_cases h : g r = m
      · rw [if_pos h, if_pos h, if_pos h, halfDeriv, nestTerm3b, v1, v2, v3, v4, v8]
        have := (hlpos (g r)).ne'
        field_simp
        ring
      · simp [h]
    have hsum : ∑ r, w r * ((choice r + (if g (c (f r)) = g r then 1 else 0) * (lam (g r) - 1) *
        condProb f g (X *ᵥ β) lam r - nestedProb f g (X *ᵥ β) lam r * lam (g r)) *
          dScaled g (X *ᵥ β) 0 lam (fun m' => if m' = m then lam m * (1 - lam m) else 0) r) =
        (lam m * (1 - lam m)) * ((Qᵀ *ᵥ fun r =>
          halfDeriv (prepVectors lam β X choice M Q) r * w r) m +
        (Qᵀ *ᵥ nestTerm3b (prepVectors lam β X choice M Q) choice w) m) := by
      rw [hterm23, Finset.mul_sum]
      refine Finset.sum_congr rfl fun r _ => ?_
      by_cases h : g r = m
      · rw [if_pos h, dScaled, if_pos h]
        simp only [Pi.zero_apply, zero_div]
        ring
      · simp [h, dScaled]
    have hsum2 : ∑ m', (if m' = m then lam m * (1 - lam m) else 0) *
        ∑ o, w (c o) * (((if g (c o) = m' then 1 else 0) -
          if m' ∈ availNests f g o then nestProb f g (X *ᵥ β) lam o m' else 0) *
            Real.log (nestSum f g (X *ᵥ β) lam o m')) =
        (lam m * (1 - lam m)) * ∑ o, w (c o) * (((if g (c o) = m then 1 else 0) -
          if m ∈ availNests f g o then nestProb f g (X *ᵥ β) lam o m else 0) *
            Real.log (nestSum f g (X *ᵥ β) lam o m)) := by
      rw [Finset.sum_eq_single m]
      · rw [if_pos rfl]
      · intro m' _ h; rw [if_neg h, zero_mul]
      · simp
    rw [hsum, hsum2, hterm1]
    ring
  · -- index coefficient
    have hcurve := nested_ll_hasDerivAt (f := f) (g := g) (V := fun t => X *ᵥ update β k t)
      (V' := fun r => X r k) (lam := fun _ => lam) (lam' := 0) (t := θ (.inr k)) hc hww
      (fun u m' => hlpos m') (fun r => mulVec_update_hasDerivAt X β k r)
      (fun m' => hasDerivAt_const _ _)
    have hupd : update β k (θ (Sum.inr k)) = β := by simp [hβ]
    simp only [hupd] at hcurve
    have hfun : (fun t => nestedObjective X M Q choice none weights (update θ (Sum.inr k) t)) =
        fun t => ∑ r, choice r * (w r * Real.log (nestedProb f g (X *ᵥ update β k t) lam r)) := by
      funext t
      rw [hobj]
      have e1 : (fun k' => update θ (Sum.inr k) t (Sum.inr k')) = update β k t := by
        funext k'
        by_cases h : k' = k
        · subst h; simp
        · simp [h, hβ]
      have e2 : (fun m' => update θ (Sum.inr k) t (Sum.inl m')) = raw := by
        funext m'; simp [hraw]
      rw [e1, e2]
    rw [hfun]
    refine hcurve.congr_deriv ?_
    simp only [nestedObjectiveGradient, calcNestedGradient, Sum.elim_inr, emptyNestOffset, sub_zero]
    simp only [← hlam, ← hwdef, ← hβ]
    simp only [Pi.zero_apply, zero_mul, Finset.sum_const_zero, add_zero, vecMul, dotProduct]
    refine Finset.sum_congr rfl fun r _ => ?_
    rw [betaTerm1, v1, v3, v9, v10, dScaled]
    have := (hlpos (g r)).ne'
    simp only [Pi.zero_apply, mul_zero, zero_div, sub_zero]
    field_simp
    ring

/-- **C38** (partial: every observation has an alternative in every nest). The code's gradient is
the vector of partial derivatives of the log-likelihood.  Missing: observations for which some nest
is empty, where the property is false (`nested_gradient_correct_iff`). -/
theorem nested_gradient_partial [Nonempty R] [DecidableEq K] (hM : Indicates M f)
    (hQ : Indicates Q g) {choice : R → ℝ} {c : O → R} (hc : OneChoice f choice c)
    {weights : Option (R → ℝ)} (hw : ObsWeights f weights) (hw0 : NonnegWeights weights)
    (X : Matrix R K ℝ) (hall : ∀ o m, ∃ r, f r = o ∧ g r = m) (θ : N ⊕ K → ℝ) :
    HasPartials (nestedObjective X M Q choice none weights)
      (nestedObjectiveGradient X M Q choice none weights θ) θ := by
  intro i
  refine (nested_gradient_exact hM hQ hc hw hw0 X θ i).congr_deriv ?_
  rcases i with m | k
  · simp only [emptyNestOffset]
    rw [Finset.filter_eq_empty_iff.2 fun o _ =>
      not_not.2 (mem_availNests.2 (hall o m))]
    simp
  · simp [emptyNestOffset]

/-- **C38** (the exact range of validity). With positive weights, the code's gradient is the
derivative at a parameter vector iff every observation has an alternative in every nest: the
property fails for every dataset with a nest that is empty for some observation. -/
theorem nested_gradient_correct_iff [Nonempty R] [DecidableEq K] (hM : Indicates M f)
    (hQ : Indicates Q g) {choice : R → ℝ} {c : O → R} (hc : OneChoice f choice c)
    {weights : Option (R → ℝ)} (hw : ObsWeights f weights)
    (hw1 : ∀ w, weights = some w → ∀ r, 0 < w r) (X : Matrix R K ℝ) (θ : N ⊕ K → ℝ) :
    HasPartials (nestedObjective X M Q choice none weights)
      (nestedObjectiveGradient X M Q choice none weights θ) θ ↔
      ∀ o m, ∃ r, f r = o ∧ g r = m := by
  have hw0 : NonnegWeights weights := fun w e r => (hw1 w e r).le
  refine ⟨fun h o m => ?_, fun hall => nested_gradient_partial hM hQ hc hw hw0 X hall θ⟩
  by_contra hno
  have hno' : m ∉ availNests f g o := fun hh => hno (mem_availNests.1 hh)
  have e := (h (.inl m)).unique (nested_gradient_exact hM hQ hc hw hw0 X θ (.inl m))
  have hz : emptyNestOffset (K := K) f g c (defaultWeights weights) (fun m => θ (.inl m)) (.inl m) = 0 := by
    linarith
  have hpos : 0 < emptyNestOffset (K := K) f g c (defaultWeights weights) (fun m => θ (.inl m))
      (.inl m) := by
    rw [emptyNestOffset]
    have h1 := naturalize_pos (fun m => θ (Sum.inl m)) m
    have h2 := naturalize_lt_one (fun m => θ (Sum.inl m)) m
    refine mul_pos (mul_pos h1 (by linarith)) (Finset.sum_pos (fun o' _ => ?_) ⟨o, by simp [hno']⟩)
    cases hwe : weights with
    | none => simp [defaultWeights]
    | some w => exact hw1 w hwe _
  linarith

/-- The derivative of the penalty `Σ (λ_m - 1)² + Σ β_k²` in raw parameters. -/
noncomputable def Spec.penaltyGradient (θ : N ⊕ K → ℝ) : N ⊕ K → ℝ
  | .inl m => 2 * (naturalizeNestCoefs (fun m => θ (.inl m)) m - 1) *
      (naturalizeNestCoefs (fun m => θ (.inl m)) m * (1 - naturalizeNestCoefs (fun m => θ (.inl m)) m))
  | .inr k => 2 * θ (.inr k)

theorem penalty_hasDerivAt [DecidableEq K] (θ : N ⊕ K → ℝ) (i : N ⊕ K) :
    HasDerivAt (fun t => ∑ m, (naturalizeNestCoefs (fun m => update θ i t (.inl m)) m - 1) ^ 2 +
      ∑ k, update θ i t (.inr k) ^ 2) (penaltyGradient θ i) (θ i) := by
  cases i with
  | inl m =>
    have e : ∀ t, (fun m' => update θ (Sum.inl m) t (Sum.inl m' : N ⊕ K)) =
        update (fun m' => θ (Sum.inl m')) m t := by
      intro t; funext m'
      by_cases h : m' = m
      · subst h; simp
      · simp [h]
    have h1 : ∀ m' ∈ (Finset.univ : Finset N), HasDerivAt
        (fun t => (naturalizeNestCoefs (update (fun m' => θ (Sum.inl m')) m t) m' - 1) ^ 2)
        (if m' = m then penaltyGradient θ (.inl m) else 0) (θ (.inl m)) := by
      intro m' _
      refine (((naturalize_hasDerivAt (fun m' => θ (Sum.inl m')) m m').sub_const 1).pow 2).congr_deriv ?_
      by_cases h : m' = m
      · subst h
        simp [penaltyGradient]
      · simp [h]
    have h2 := (HasDerivAt.fun_sum h1).add_const (∑ k, θ (.inr k) ^ 2)
    rw [Finset.sum_ite_eq' Finset.univ m, if_pos (Finset.mem_univ m)] at h2
    simp only [e]
    exact h2
  | inr k =>
    have e : ∀ t, (fun k' => update θ (Sum.inr k) t (Sum.inr k' : N ⊕ K)) =
        update (fun k' => θ (Sum.inr k')) k t := by
      intro t; funext k'
      by_cases h : k' = k
      · subst h; simp
      · simp [h]
    have h1 := sum_sq_hasDerivAt (fun k' => θ (Sum.inr k')) k
    have h2 := h1.const_add (∑ m, (naturalizeNestCoefs (fun m => θ (.inl m)) m - 1) ^ 2)
    have e2 : ∀ t k', update θ (Sum.inr k) t (Sum.inr k' : N ⊕ K) =
        update (fun k' => θ (Sum.inr k')) k t k' := fun t k' => congrFun (e t) k'
    simp only [e2]
    exact h2

/-- The penalised gradient of the code. -/
theorem nestedObjectiveGradient_ridge [Nonempty R] (X : Matrix R K ℝ)
    (choice : R → ℝ) (ρ : ℝ) (weights : Option (R → ℝ)) (θ : N ⊕ K → ℝ) (i : N ⊕ K) :
    nestedObjectiveGradient X M Q choice (some ρ) weights θ i =
      nestedObjectiveGradient X M Q choice none weights θ i -
        2 * ρ * (Sum.elim (fun m => 20 - θ (.inl m)) (fun k => θ (.inr k)) : N ⊕ K → ℝ) i := rfl

/-- **C39** (exact). With a ridge penalty, the true derivative of the penalised log-likelihood is
the unpenalised gradient (with the offset of C38) minus `ridge` times the derivative of the
penalty. -/
theorem nested_ridge_derivative [Nonempty R] [DecidableEq K] (hM : Indicates M f) (hQ : Indicates Q g)
    {choice : R → ℝ} {c : O → R} (hc : OneChoice f choice c) {weights : Option (R → ℝ)}
    (hw : ObsWeights f weights) (hw0 : NonnegWeights weights) (X : Matrix R K ℝ) (ρ : ℝ)
    (θ : N ⊕ K → ℝ) :
    HasPartials (nestedObjective X M Q choice (some ρ) weights)
      (fun i => nestedObjectiveGradient X M Q choice none weights θ i -
        emptyNestOffset f g c (defaultWeights weights) (fun m => θ (.inl m)) i -
        ρ * penaltyGradient θ i) θ := fun i =>
  (nested_gradient_exact hM hQ hc hw hw0 X θ i).sub ((penalty_hasDerivAt θ i).const_mul ρ)

/-- **C39** (partial: index coefficients). With a ridge penalty the components of the gradient that
belong to the index coefficients are right.  Missing: the nest components, for which the property is
false (`nested_ridge_gradient_wrong`). -/
theorem nested_ridge_gradient_partial [Nonempty R] [DecidableEq K] (hM : Indicates M f)
    (hQ : Indicates Q g) {choice : R → ℝ} {c : O → R} (hc : OneChoice f choice c)
    {weights : Option (R → ℝ)} (hw : ObsWeights f weights) (hw0 : NonnegWeights weights)
    (X : Matrix R K ℝ) (ρ : ℝ) (θ : N ⊕ K → ℝ) (k : K) :
    HasDerivAt (fun t => nestedObjective X M Q choice (some ρ) weights (update θ (.inr k) t))
      (nestedObjectiveGradient X M Q choice (some ρ) weights θ (.inr k)) (θ (.inr k)) := by
  refine (nested_ridge_derivative hM hQ hc hw hw0 X ρ θ (.inr k)).congr_deriv ?_
  rw [nestedObjectiveGradient_ridge]
  simp [emptyNestOffset, penaltyGradient]
  ring

/-- **C39** (negation). Whenever the unpenalised gradient is right (all nests available) and the
penalty is positive, the nest components of the penalised gradient are wrong at every raw nest
parameter below 20. -/
theorem nested_ridge_gradient_wrong [Nonempty R] [DecidableEq K] (hM : Indicates M f)
    (hQ : Indicates Q g) {choice : R → ℝ} {c : O → R} (hc : OneChoice f choice c)
    {weights : Option (R → ℝ)} (hw : ObsWeights f weights) (hw0 : NonnegWeights weights)
    (X : Matrix R K ℝ) (hall : ∀ o m, ∃ r, f r = o ∧ g r = m) {ρ : ℝ} (hρ : 0 < ρ)
    (θ : N ⊕ K → ℝ) (m : N) (hθ : θ (.inl m) ≤ 20) :
    ¬ HasDerivAt (fun t => nestedObjective X M Q choice (some ρ) weights (update θ (.inl m) t))
      (nestedObjectiveGradient X M Q choice (some ρ) weights θ (.inl m)) (θ (.inl m)) := by
  intro h
  have e := h.unique (nested_ridge_derivative hM hQ hc hw hw0 X ρ θ (.inl m))
  have h0 : emptyNestOffset (K := K) f g c (defaultWeights weights) (fun m => θ (.inl m)) (.inl m) = 0 := by
    rw [emptyNestOffset, Finset.filter_eq_empty_iff.2 fun o _ =>
      not_not.2 (mem_availNests.2 (hall o m))]
    simp
  rw [nestedObjectiveGradient_ridge] at e
  simp only [h0, Sum.elim_inl, sub_zero, penaltyGradient] at e
  have h1 := naturalize_pos (fun m => θ (Sum.inl m)) m
  have h2 := naturalize_lt_one (fun m => θ (Sum.inl m)) m
  set l := naturalizeNestCoefs (fun m => θ (Sum.inl m)) m
  have h3 : 2 * ρ * (20 - θ (.inl m)) = ρ * (2 * (l - 1) * (l * (1 - l))) := by linarith
  have h4 : 0 < l * (1 - l) := mul_pos h1 (by linarith)
  have h5 : 0 < (1 - l) * (l * (1 - l)) := mul_pos (by linarith) h4
  have h6 : 0 ≤ ρ * (20 - θ (.inl m)) := mul_nonneg hρ.le (by linarith)
  have h7 := mul_pos hρ h5
  nlinarith

/-! ## C41 (nested part) -/

/-- A weighted Gram matrix is symmetric positive semidefinite. -/
theorem gram_psd {P O' : Type} [Fintype P] [Fintype O'] (G : Matrix O' P ℝ) {wo : O' → ℝ}
    (hwo : ∀ o, 0 ≤ wo o) : SymmPSD (Gᵀ * Matrix.of fun o i => wo o * G o i) := by
  constructor
  · ext i j
    simp only [transpose_apply, Matrix.mul_apply, Matrix.of_apply]
    exact Finset.sum_congr rfl fun o _ => by ring
  · intro x
    have : x ⬝ᵥ ((Gᵀ * Matrix.of fun o i => wo o * G o i) *ᵥ x) = ∑ o, wo o * (G *ᵥ x) o ^ 2 := by
      rw [← Matrix.mulVec_mulVec, Matrix.dotProduct_mulVec, Matrix.vecMul_transpose]
      simp only [dotProduct]
      refine Finset.sum_congr rfl fun o _ => ?_
      have : ((Matrix.of fun o i => wo o * G o i) *ᵥ x) o = wo o * (G *ᵥ x) o := by
        simp only [mulVec, dotProduct, Matrix.of_apply, Finset.mul_sum]
        exact Finset.sum_congr rfl fun i _ => by ring
      rw [this]; ring
    rw [this]
    exact Finset.sum_nonneg fun o _ => mul_nonneg (hwo o) (sq_nonneg _)

theorem weightsPerObs_nonneg [Nonempty R] (hM : Indicates M f) {w : R → ℝ} (hw0 : ∀ r, 0 ≤ w r)
    (o : O) : 0 ≤ weightsPerObs M w o := by
  obtain ⟨r⟩ := ‹Nonempty R›
  refine le_trans (mul_nonneg ?_ (hw0 r)) (Finset.le_sup' (fun s => M s o * w s) (Finset.mem_univ r))
  rw [hM]; split_ifs <;> norm_num

/-- **C41** (nested). The BHHH matrix is symmetric negative semidefinite for non-negative weights and
ridge. -/
theorem nested_bhhh_nsd [Nonempty R] [DecidableEq K] (hM : Indicates M f) (raw : N → ℝ) (β : K → ℝ)
    (X : Matrix R K ℝ) (choice : R → ℝ) {ridge : Option ℝ} (hρ : ∀ ρ, ridge = some ρ → 0 ≤ ρ)
    {weights : Option (R → ℝ)} (hw0 : NonnegWeights weights) (jac : Bool) :
    SymmNSD (calcNestedBHHH raw β X choice M Q ridge weights jac) := by
  obtain ⟨h1, h2⟩ := gram_psd (nestedScores raw β X choice M Q jac)
    (weightsPerObs_nonneg hM (nonnegWeights_default hw0))
  cases ridge with
  | none =>
    simp only [calcNestedBHHH]
    refine ⟨by rw [Matrix.transpose_smul, h1], fun x => ?_⟩
    rw [Matrix.smul_mulVec, dotProduct_smul]
    simpa using h2 x
  | some ρ =>
    simp only [calcNestedBHHH]
    refine ⟨by rw [Matrix.transpose_smul, Matrix.transpose_add, h1, Matrix.transpose_smul,
      Matrix.transpose_one], fun x => ?_⟩
    rw [Matrix.smul_mulVec, dotProduct_smul, Matrix.add_mulVec, dotProduct_add,
      Matrix.smul_mulVec, dotProduct_smul, Matrix.one_mulVec]
    have h3 : 0 ≤ x ⬝ᵥ x := by
      simp only [dotProduct]; exact Finset.sum_nonneg fun i _ => mul_self_nonneg _
    have h4 := mul_nonneg (hρ ρ rfl) h3
    have h5 := h2 x
    simp only [smul_eq_mul]
    linarith

/-- **C41** (nested, what is summed). The rows of the matrix whose outer products are summed add up,
with the observation weights, to the gradient. -/
theorem nested_scores_sum [Nonempty R] (hM : Indicates M f) (hQ : Indicates Q g)
    {weights : Option (R → ℝ)} (hw : ObsWeights f weights)
    (hw0 : NonnegWeights weights) (raw : N → ℝ) (β : K → ℝ) (X : Matrix R K ℝ) (choice : R → ℝ)
    (jac : Bool) (i : N ⊕ K) :
    ∑ o, weightsPerObs M (defaultWeights weights) o * nestedScores raw β X choice M Q jac o i =
      calcNestedGradient raw β X choice M Q none weights jac i := by
  have hww : ∀ r, weightsPerObs M (defaultWeights weights) (f r) = defaultWeights weights r :=
    weightsPerObs_eq hM (obsWeights_default hw) (nonnegWeights_default hw0)
  generalize hwo : weightsPerObs M (defaultWeights weights) = wo at hww
  have hswap : ∀ x : R → ℝ, ∑ o, wo o * ∑ r ∈ rowsOf f o, x r = ∑ r, x r * defaultWeights weights r := by
    intro x
    rw [sum_over_obs f]
    refine Finset.sum_congr rfl fun o _ => ?_
    rw [Finset.mul_sum]
    refine Finset.sum_congr rfl fun r hr => ?_
    rw [← hww, mem_rowsOf.1 hr]; ring
  cases i with
  | inl m =>
    simp only [nestedScores, calcNestedGradient, Matrix.fromCols_apply_inl, Matrix.of_apply,
      Sum.elim_inl, transpose_mul_indicates hM, hwo]
    have hd : ∀ (a b c j : ℝ) (o : O), wo o * ((a + b + c) * j) =
        (a * wo o + wo o * b + wo o * c) * j := fun a b c j o => by ring
    simp only [hd]
    rw [← Finset.sum_mul, Finset.sum_add_distrib, Finset.sum_add_distrib, hswap, hswap]
    congr 2
    · congr 1
      simp only [mulVec, dotProduct, transpose_apply]
      exact Finset.sum_congr rfl fun r _ => by ring
    · simp only [mulVec, dotProduct, transpose_apply, nestTerm3b]
      exact Finset.sum_congr rfl fun r _ => by ring
  | inr k =>
    simp only [nestedScores, calcNestedGradient, Matrix.fromCols_apply_inr,
      Sum.elim_inr, transpose_mul_indicates hM, hwo, Matrix.of_apply]
    rw [hswap]
    simp only [vecMul, dotProduct]
    exact Finset.sum_congr rfl fun r _ => by ring

/-! ## C42 -/

/-- **C42**. `identify_degenerate_nests` returns, in ascending order, exactly the positions of the
nests with one alternative. -/
theorem degenerate_nests {V : Type} (spec : List (String × List V)) :
    (∀ pos, pos ∈ identifyDegenerateNests spec ↔
      ∃ name a, spec[pos]? = some (name, [a])) ∧
    (identifyDegenerateNests spec).Pairwise (· < ·) := by
  refine ⟨fun pos => ?_, List.pairwise_lt_range.filter _⟩
  simp only [identifyDegenerateNests, List.mem_filter, List.mem_range]
  constructor
  · rintro ⟨h, h'⟩
    rw [List.getElem?_eq_getElem h] at h' ⊢
    rcases hs : spec[pos] with ⟨name, l⟩
    simp only [hs, beq_iff_eq] at h'
    obtain ⟨a, rfl⟩ := List.length_eq_one_iff.1 h'
    exact ⟨name, a, rfl⟩
  · rintro ⟨name, a, h⟩
    exact ⟨(List.getElem?_eq_some_iff.1 h).1, by simp [h]⟩

/-- **C42**. The positions `fit_mle` constrains are exactly the degenerate nests and the positions
the user asked for, each once, in ascending order. -/
theorem constrained_positions {V : Type} (spec : List (String × List V)) (user : Option (List ℤ)) :
    (∀ z : ℤ, z ∈ finalConstrainedPos spec user ↔
      (∃ pos : ℕ, z = pos ∧ ∃ name a, spec[pos]? = some (name, [a])) ∨ ∃ l, user = some l ∧ z ∈ l) ∧
    (finalConstrainedPos spec user).Pairwise (· < ·) := by
  constructor
  · intro z
    simp only [finalConstrainedPos, List.mem_mergeSort, List.mem_dedup, List.mem_append,
      List.mem_map, (degenerate_nests spec).1]
    refine or_congr ?_ ?_
    · constructor
      · rintro ⟨pos, h, rfl⟩; exact ⟨pos, rfl, h⟩
      · rintro ⟨pos, rfl, h⟩; exact ⟨pos, h, rfl⟩
    · cases user <;> simp
  · have h1 : ((identifyDegenerateNests spec).map Int.ofNat ++ user.getD []).dedup.mergeSort
        (· ≤ ·) |>.Pairwise (· ≤ ·) := by
      have := List.pairwise_mergeSort (le := fun a b : ℤ => decide (a ≤ b))
        (fun a b c hab hbc => by simp only [decide_eq_true_eq] at *; omega)
        (fun a b => by simp only [Bool.or_eq_true, decide_eq_true_eq]; omega)
        ((identifyDegenerateNests spec).map Int.ofNat ++ user.getD []).dedup
      exact this.imp fun h => by simpa using h
    have h2 : ((identifyDegenerateNests spec).map Int.ofNat ++ user.getD []).dedup.mergeSort
        (· ≤ ·) |>.Nodup :=
      (List.mergeSort_perm _ _).nodup_iff.2 (List.nodup_dedup _)
    exact (h1.and h2).imp fun h => lt_of_le_of_ne h.1 h.2

/-- **C42**. If a nest has one alternative (and an observation lists an alternative at most once),
no probability depends on that nest's coefficient. -/
theorem degenerate_nest_irrelevant {ι : Type} (hM : Indicates M f) (hQ : Indicates Q g)
    {alt : R → ι} {nestOf : ι → N} (hg : ∀ r, g r = nestOf (alt r))
    (hinj : ∀ r s, f r = f s → alt r = alt s → r = s) {m : N} {a : ι}
    (hdeg : ∀ b, nestOf b = m → b = a) {lam lam' : N → ℝ} (hl : ∀ m, 0 < lam m)
    (hl' : ∀ m, 0 < lam' m) (hag : ∀ m', m' ≠ m → lam m' = lam' m') (β : K → ℝ)
    (X : Matrix R K ℝ) (r : R) :
    nestedLongProbs lam β X M Q r = nestedLongProbs lam' β X M Q r := by
  rw [nestedLongProbs_eq hM hQ hl, nestedLongProbs_eq hM hQ hl']
  set V := X *ᵥ β
  -- the nest has a single row per observation
  have hsingle : ∀ s, g s = m → nestRows f g (f s) m = {s} := by
    intro s hs
    ext t
    simp only [mem_nestRows, Finset.mem_singleton]
    constructor
    · rintro ⟨h1, h2⟩
      refine hinj t s h1 ?_
      rw [hdeg (alt t) (by rw [← hg, h2]), hdeg (alt s) (by rw [← hg, hs])]
    · rintro rfl; exact ⟨rfl, hs⟩
  have hsum : ∀ (l : N → ℝ), (∀ m, 0 < l m) → ∀ s, g s = m →
      nestSum f g V l (f s) m = Real.exp (V s / l m) := by
    intro l _ s hs
    rw [nestSum, hsingle s hs, Finset.sum_singleton]
  have hpow : ∀ (l : N → ℝ), (∀ m, 0 < l m) → ∀ s, g s = m →
      nestSum f g V l (f s) m ^ l m = Real.exp (V s) := by
    intro l hlp s hs
    rw [hsum l hlp s hs, ← Real.exp_mul, div_mul_cancel₀ _ (hlp m).ne']
  have hother : ∀ o m', m' ≠ m → nestSum f g V lam o m' = nestSum f g V lam' o m' := by
    intro o m' h
    rw [nestSum, nestSum, hag m' h]
  have hall : ∀ m' ∈ availNests f g (f r), nestSum f g V lam (f r) m' ^ lam m' =
      nestSum f g V lam' (f r) m' ^ lam' m' := by
    intro m' hm'
    by_cases h : m' = m
    · subst h
      obtain ⟨s, h1, h2⟩ := mem_availNests.1 hm'
      rw [← h1, hpow lam hl s h2, hpow lam' hl' s h2]
    · rw [hother _ _ h, hag m' h]
  rw [nestedProb, nestedProb, nestProb, nestProb, Finset.sum_congr rfl hall,
    hall _ (own_avail f g r)]
  congr 1
  rw [condProb, condProb]
  by_cases h : g r = m
  · rw [h, hsum lam hl r h, hsum lam' hl' r h, div_self (Real.exp_pos _).ne',
      div_self (Real.exp_pos _).ne']
  · rw [hother _ _ h, hag _ h]

/-! ## Non-vacuity -/

/-- Five rows: observation 0 has three alternatives, observation 1 two. -/
def exNestObs : Fin 5 → Fin 2 := ![0, 0, 0, 1, 1]
/-- Nests of the rows: each observation has an alternative in both nests. -/
def exNest : Fin 5 → Fin 2 := ![0, 0, 1, 0, 1]
/-- The choices. -/
def exNestChoice : Fin 5 → ℝ := ![0, 1, 0, 0, 1]

theorem exNest_oneChoice : OneChoice exNestObs exNestChoice ![1, 4] where
  mem := by decide
  one := by intro o; fin_cases o <;> rfl
  zero := by intro r; fin_cases r <;> simp [exNestObs, exNestChoice]

theorem exNest_all : ∀ o m, ∃ r, exNestObs r = o ∧ exNest r = m := by decide

/-- All hypotheses of the gradient theorems hold for the example (weights 2 and 3). -/
example (θ : Fin 2 ⊕ Fin 1 → ℝ) :
    HasPartials (nestedObjective (!![1; 2; 3; 4; 5] : Matrix (Fin 5) (Fin 1) ℝ)
      (fun r o => if exNestObs r = o then 1 else 0) (fun r m => if exNest r = m then 1 else 0)
      exNestChoice none (some ![2, 2, 2, 3, 3]))
      (nestedObjectiveGradient !![1; 2; 3; 4; 5] (fun r o => if exNestObs r = o then 1 else 0)
        (fun r m => if exNest r = m then 1 else 0) exNestChoice none (some ![2, 2, 2, 3, 3]) θ) θ :=
  nested_gradient_partial (f := exNestObs) (g := exNest) (fun _ _ => rfl) (fun _ _ => rfl)
    exNest_oneChoice
    (by
      intro w e r s h; cases e
      fin_cases r <;> fin_cases s <;> simp [exNestObs] at h ⊢)
    (by intro w e r; cases e; fin_cases r <;> norm_num)
    _ exNest_all θ

/-- A dataset with an empty nest, on which the gradient is therefore wrong everywhere: the running
example of three rows with nests 0, 1, 0 (observation 1 has no alternative in nest 1). -/
theorem nested_gradient_wrong_example (θ : Fin 2 ⊕ Fin 1 → ℝ) :
    ¬ HasPartials (nestedObjective (!![1; 2; 3] : Matrix (Fin 3) (Fin 1) ℝ) exM
      (fun r m => if (![0, 1, 0] : Fin 3 → Fin 2) r = m then 1 else 0) exChoice none none)
      (nestedObjectiveGradient !![1; 2; 3] exM
        (fun r m => if (![0, 1, 0] : Fin 3 → Fin 2) r = m then 1 else 0) exChoice none none θ) θ := by
  rw [nested_gradient_correct_iff (f := exObs) (g := ![0, 1, 0]) exM_indicates (fun _ _ => rfl)
    exOneChoice (fun w e => (by cases e)) (fun w e => (by cases e))]
  decide

/-- A degenerate nest: alternative 3 alone in nest 1. -/
example : ∀ b : Fin 3, (![0, 0, 1] : Fin 3 → Fin 2) b = 1 → b = 2 := by decide

example : identifyDegenerateNests [("a", [1, 2]), ("b", [3]), ("c", [4, 5]), ("d", [6])] = [1, 3] := by
  decide

end Pylogit
