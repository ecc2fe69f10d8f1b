import Verif.Model.Mixed
import Verif.Spec.Mixed
import Verif.Lemmas.LogLik
import Verif.Lemmas.Mappings
import Verif.Lemmas.Gradient
import Verif.Props.Definiteness
import Verif.Props.Nested

/-!
# C41 (mixed part), C43-C46: mixed logit
-/

set_option linter.unusedSectionVars false

open Finset Matrix Function

namespace Pylogit

open Spec

variable {R O A M K J D P ι : Type} [Fintype R] [DecidableEq R] [Fintype O] [DecidableEq O]
  [Fintype M] [DecidableEq M] [Fintype K] [DecidableEq K] [Fintype J] [Fintype D]
  [Fintype P] [DecidableEq P]

theorem clip_eq_clip700 (x : ℝ) : clipExponent x = clip700 x := by
  unfold clipExponent clip700
  by_cases h1 : x > maxExponentVal
  · rw [if_pos h1]
    have h1' : (700 : ℝ) < x := h1
    rw [min_eq_right h1'.le]; norm_num [maxExponentVal]
  · rw [if_neg h1]
    have h1' : ¬ (700 : ℝ) < x := h1
    by_cases h2 : x < minExponentVal
    · rw [if_pos h2]
      have h2' : x < -700 := h2
      rw [min_eq_left (by linarith), max_eq_left h2'.le]; rfl
    · rw [if_neg h2]
      have h2' : ¬ x < -700 := h2
      rw [min_eq_left (by linarith), max_eq_right (by linarith)]

theorem longProbs_eq_clippedLogit {B : Matrix R O ℝ} {f : R → O} (hB : Indicates B f) (h : R → ℝ)
    (r : R) : longProbs B h r = clippedLogit f h r := by
  rw [longProbs_eq hB]
  simp only [longExponentials, clip_eq_clip700, clippedLogit, logitProb]

/-! ## C43: the expanded design -/

theorem expandedDesign_apply {C : Matrix R M ℝ} {g : R → M} (hC : Indicates C g)
    (X : Matrix R K ℝ) (draws : J → M → D → ℝ) (pos : J → K) (r : R) (d : D) (j : J) :
    expandedDesign X draws pos C r d (.inr j) = X r (pos j) * draws j (g r) d := by
  simp only [expandedDesign]
  rw [mulVec_indicates hC]

/-- **C43**: with parameters `(means, standard deviations)` the utility computed from the expanded
design is the utility with the random coefficients of the row's individual. -/
theorem expanded_utility {C : Matrix R M ℝ} {g : R → M} (hC : Indicates C g)
    (X : Matrix R K ℝ) (draws : J → M → D → ℝ) (pos : J → K) (mean : K → ℝ) (sd : J → ℝ)
    (r : R) (d : D) :
    ∑ q, expandedDesign X draws pos C r d q * Sum.elim mean sd q =
      ∑ k, X r k * randomCoef mean sd pos draws (g r) d k := by
  rw [Fintype.sum_sum_type]
  simp only [expandedDesign_apply hC, Sum.elim_inl, Sum.elim_inr, randomCoef, mul_add,
    Finset.sum_add_distrib]
  congr 1
  simp only [Finset.mul_sum, Finset.sum_filter]
  rw [Finset.sum_comm]
  refine Finset.sum_congr rfl fun j _ => ?_
  rw [Finset.sum_eq_single (pos j)]
  · simp; ring
  · intro k _ hk; simp [Ne.symm hk]
  · intro h; exact absurd (Finset.mem_univ _) h

/-- **C43** (contract): the expansion succeeds exactly for a non-empty list of mixed variables with one
array of draws each; a different number of arrays is a `ValueError`. -/
theorem createExpandedDesign_contract (X : Matrix R K ℝ) (drawList : List (M → D → ℝ))
    (pos : List K) (C : Matrix R M ℝ) :
    (pos.length ≠ drawList.length →
      createExpandedDesign X drawList pos C = .error .valueError) ∧
    (pos.length = drawList.length → drawList = [] →
      createExpandedDesign X drawList pos C = .error .indexError) ∧
    (∀ h : pos.length = drawList.length, drawList ≠ [] →
      createExpandedDesign X drawList pos C =
        .ok (expandedDesign X (fun j => drawList.get (j.cast h)) pos.get C)) := by
  refine ⟨fun h => ?_, fun h h0 => ?_, fun h h0 => ?_⟩
  · simp [createExpandedDesign, h]
  · unfold createExpandedDesign; rw [dif_pos h, if_pos h0]
  · unfold createExpandedDesign; rw [dif_pos h, if_neg h0]

/-- **C43** (names): every name of a mixed variable is translated to the position of the first
variable of that name, in order; an unknown name is a `ValueError`. -/
theorem convertMixingNames_spec {ν : Type} [DecidableEq ν] (mixing vars : List ν) :
    ((∃ x ∈ mixing, x ∉ vars) → convertMixingNames mixing vars = .error .valueError) ∧
    ((∀ x ∈ mixing, x ∈ vars) → ∃ pos, convertMixingNames mixing vars = .ok pos ∧
      pos.length = mixing.length ∧
      ∀ i (h : i < mixing.length), ∃ p, pos[i]? = some p ∧ vars[p]? = some mixing[i] ∧
        ∀ q < p, vars[q]? ≠ some mixing[i]) := by
  constructor
  · rintro ⟨x, hx, hnx⟩
    unfold convertMixingNames
    refine mapM_error (fun a _ => ?_) ⟨x, hx, by simp [hnx]⟩
    by_cases ha : a ∈ vars
    · exact Or.inl ⟨vars.idxOf a, by simp [ha]⟩
    · exact Or.inr (by simp [ha])
  · intro h
    refine ⟨mixing.map vars.idxOf, ?_, by simp, fun i hi => ?_⟩
    · unfold convertMixingNames
      exact mapM_ok fun a ha => by simp [h a ha]
    · have hm := h _ (List.getElem_mem hi)
      refine ⟨vars.idxOf mixing[i], by simp [hi], getElem?_idxOf hm, fun q hq hqe => ?_⟩
      obtain ⟨hql, hqe⟩ := List.getElem?_eq_some_iff.1 hqe
      have := List.not_of_lt_findIdx (xs := vars) (p := (· == mixing[i])) (i := q) hq
      simp [hqe] at this

/-! ## C44: simulated sequence probabilities -/

theorem expandedSequenceProbs_eq_exp {C : Matrix R M ℝ} {g : R → M} (hC : Indicates C g)
    (p : R → D → ℝ) (choice : R → ℝ) (m : M) (d : D) :
    expandedSequenceProbs p choice C m d =
      Real.exp (∑ r, choice r * ((if g r = m then 1 else 0) * Real.log (p r d))) := by
  simp only [expandedSequenceProbs]
  rw [if_neg (Real.exp_pos _).ne']
  congr 1
  simp only [mulVec, dotProduct, transpose_apply, hC _ _]
  exact Finset.sum_congr rfl fun r _ => by ring

theorem expandedSequenceProbs_pos (p : R → D → ℝ) (choice : R → ℝ) (C : Matrix R M ℝ) (m : M)
    (d : D) : 0 < expandedSequenceProbs p choice C m d := by
  simp only [expandedSequenceProbs]
  rw [if_neg (Real.exp_pos _).ne']
  exact Real.exp_pos _

theorem drawMean_eq (x : D → ℝ) : drawMean x = average x := by
  simp only [drawMean, average]; rw [div_eq_inv_mul]

theorem drawMean_pos [Nonempty D] {x : D → ℝ} (hx : ∀ d, 0 < x d) : 0 < drawMean x :=
  div_pos (Finset.sum_pos (fun d _ => hx d) Finset.univ_nonempty)
    (Nat.cast_pos.2 Fintype.card_pos)

theorem drawMean_le_one [Nonempty D] {x : D → ℝ} (hx : ∀ d, x d ≤ 1) : drawMean x ≤ 1 := by
  refine div_le_one_of_le₀ ?_ (Nat.cast_nonneg _)
  calc ∑ d, x d ≤ ∑ _d : D, (1 : ℝ) := Finset.sum_le_sum fun d _ => hx d
    _ = Fintype.card D := by simp

theorem drawMean_const [Nonempty D] (c : ℝ) : drawMean (fun _ : D => c) = c := by
  simp [drawMean, Finset.card_univ]

/-- The probability of an individual's choices under one draw is the product of the probabilities of
the rows chosen. -/
theorem expanded_sequence_probability {C : Matrix R M ℝ} {g : R → M} (hC : Indicates C g)
    {p : R → D → ℝ} (hp : ∀ r d, 0 < p r d) {choice : R → ℝ} (hy : ZeroOne choice) (m : M) (d : D) :
    expandedSequenceProbs p choice C m d = sequenceProb g choice (fun r => p r d) m := by
  rw [expandedSequenceProbs_eq_exp hC, sequenceProb, Finset.prod_filter, Real.exp_sum]
  refine Finset.prod_congr rfl fun r _ => ?_
  rcases hy r with h | h
  · simp [h]
  · by_cases hg : g r = m
    · simp [h, hg, Real.exp_log (hp r d)]
    · simp [h, hg]

/-- **C44**: with return type `None` the result is the average over the draws of the product of the
probabilities of the rows chosen; with `'all'` the per-draw products are returned too; any other
return type is a `ValueError`. -/
theorem sequence_probability {C : Matrix R M ℝ} {g : R → M} (hC : Indicates C g)
    {p : R → D → ℝ} (hp : ∀ r d, 0 < p r d) {choice : R → ℝ} (hy : ZeroOne choice) :
    calcChoiceSequenceProbs p choice C none =
      .ok (.one fun m => average fun d => sequenceProb g choice (fun r => p r d) m) ∧
    calcChoiceSequenceProbs p choice C (some "all") =
      .ok (.all (fun m => average fun d => sequenceProb g choice (fun r => p r d) m)
        (fun m d => sequenceProb g choice (fun r => p r d) m)) ∧
    ∀ s, s ≠ "all" → calcChoiceSequenceProbs p choice C (some s) = .error .valueError := by
  have h2 : expandedSequenceProbs p choice C = fun m d => sequenceProb g choice (fun r => p r d) m :=
    funext fun m => funext fun d => expanded_sequence_probability hC hp hy m d
  have h1 : sequenceProbs p choice C =
      fun m => average fun d => sequenceProb g choice (fun r => p r d) m := by
    funext m
    simp only [sequenceProbs, drawMean_eq, h2]
  refine ⟨?_, ?_, fun s hs => ?_⟩
  · simp only [calcChoiceSequenceProbs, h1]
  · simp only [calcChoiceSequenceProbs, h1, h2, if_true]
  · simp [calcChoiceSequenceProbs, hs]

/-- **C44** (range). -/
theorem sequence_probability_range [Nonempty D] {C : Matrix R M ℝ} {g : R → M}
    (hC : Indicates C g) {p : R → D → ℝ} (hp : ∀ r d, 0 < p r d) (hp1 : ∀ r d, p r d ≤ 1)
    {choice : R → ℝ} (hy : ZeroOne choice) (m : M) :
    0 < sequenceProbs p choice C m ∧ sequenceProbs p choice C m ≤ 1 := by
  refine ⟨drawMean_pos fun d => expandedSequenceProbs_pos _ _ _ _ _, drawMean_le_one fun d => ?_⟩
  rw [expanded_sequence_probability hC hp hy]
  exact Finset.prod_le_one (fun r _ => (hp r d).le) fun r _ => hp1 r d

/-- The probabilities used inside the mixed functions are the result of `calc_probabilities`. -/
theorem calcProbabilities_long_3d (θ : P → ℝ) (X : R → D → P → ℝ) (ids : R → ι)
    (C : Matrix R O ℝ) (rta : Matrix R A ℝ) :
    calcProbabilities (S := Empty) (I := Empty) (.vec θ) (.three X) ids C rta mnlTransform none none
      none true = .ok (.long (kernelProbs θ X C)) := by
  rfl

theorem oneChoice_zeroOne {f : R → O} {choice : R → ℝ} {c : O → R} (hc : OneChoice f choice c) :
    ZeroOne choice := by
  intro r
  by_cases h : r = c (f r)
  · right; rw [h]; exact hc.one _
  · left; exact hc.zero r h

/-- **C44** (log-likelihood): the mixed log-likelihood is the weighted sum over the individuals of the
log of the simulated probability of their choices, minus the ridge penalty. -/
theorem mixed_loglik_formula [Nonempty R] {B : Matrix R O ℝ} {f : R → O} (hB : Indicates B f)
    {C : Matrix R M ℝ} {g : R → M} (hC : Indicates C g) {choice : R → ℝ} (hy : ZeroOne choice)
    {weights : Option (R → ℝ)} (hw : ObsWeights g weights) (hw0 : NonnegWeights weights)
    {first : M → R} (hfirst : ∀ m, g (first m) = m) (θ : P → ℝ) (X : R → D → P → ℝ)
    (ridge : Option ℝ) :
    mixedLogLikelihood θ X B C choice ridge weights =
      ∑ m, (weights.getD fun _ => 1) (first m) * Real.log (average fun d =>
        sequenceProb g choice (fun r => kernelProbs θ X B r d) m)
      - ridge.getD 0 * ∑ q, θ q ^ 2 := by
  have h1 : ∑ m, weightsPerObs C (defaultWeights weights) m *
      Real.log (sequenceProbs (kernelProbs θ X B) choice C m) =
      ∑ m, (weights.getD fun _ => 1) (first m) * Real.log (average fun d =>
        sequenceProb g choice (fun r => kernelProbs θ X B r d) m) := by
    refine Finset.sum_congr rfl fun m _ => ?_
    have hw' := weightsPerObs_eq hC (obsWeights_default hw) (nonnegWeights_default hw0) (first m)
    rw [hfirst] at hw'
    rw [hw']
    congr 2
    simp only [sequenceProbs, drawMean_eq]
    congr 1
    funext d
    exact expanded_sequence_probability hC (fun r d => longProbs_pos hB _ _) hy m d
  cases ridge <;> simp [mixedLogLikelihood, h1]

/-- **C44** (sign). -/
theorem mixed_loglik_nonpos [Nonempty R] [Nonempty D] {B : Matrix R O ℝ} {f : R → O}
    (hB : Indicates B f) {C : Matrix R M ℝ} {g : R → M} (hC : Indicates C g) {choice : R → ℝ}
    (hy : ZeroOne choice) {weights : Option (R → ℝ)} (hw0 : NonnegWeights weights) (θ : P → ℝ)
    (X : R → D → P → ℝ) {ridge : Option ℝ} (hρ : ∀ ρ, ridge = some ρ → 0 ≤ ρ) :
    mixedLogLikelihood θ X B C choice ridge weights ≤ 0 := by
  have h1 : ∑ m, weightsPerObs C (defaultWeights weights) m *
      Real.log (sequenceProbs (kernelProbs θ X B) choice C m) ≤ 0 := by
    refine Finset.sum_nonpos fun m _ => ?_
    have hr := sequence_probability_range (D := D) hC (p := kernelProbs θ X B)
      (fun r d => longProbs_pos hB _ _) (fun r d => longProbs_le_one hB _ _) hy m
    exact mul_nonpos_of_nonneg_of_nonpos (weightsPerObs_nonneg hC (nonnegWeights_default hw0) m)
      (Real.log_nonpos hr.1.le hr.2)
  cases ridge with
  | none => simpa [mixedLogLikelihood] using h1
  | some ρ =>
    have := mul_nonneg (hρ ρ rfl) (Finset.sum_nonneg fun q (_ : q ∈ univ) => sq_nonneg (θ q))
    simp only [mixedLogLikelihood]
    linarith

/-! ## C45: the gradient -/

/-- **C45**: for panel data with one choice per observation, weights constant within an individual
and utilities inside the clipping range, the gradient function returns the partial derivatives of
the simulated log-likelihood in every parameter. -/
theorem mixed_gradient [Nonempty R] [Nonempty D] {B : Matrix R O ℝ} {f : R → O}
    (hB : Indicates B f) {C : Matrix R M ℝ} {g : R → M} (hC : Indicates C g)
    (hfg : PanelData f g) {choice : R → ℝ} {c : O → R} (hc : OneChoice f choice c)
    {weights : Option (R → ℝ)} (hw : ObsWeights g weights) (hw0 : NonnegWeights weights)
    (θ : P → ℝ) (X : R → D → P → ℝ) (ridge : Option ℝ)
    (hb : ∀ r d, |∑ q, X r d q * θ q| < 700) :
    HasPartials (fun θ => mixedLogLikelihood θ X B C choice ridge weights)
      (mixedGradient θ X B C choice ridge weights) θ := by
  intro q
  have hww : ∀ r, weightsPerObs C (defaultWeights weights) (g r) = defaultWeights weights r :=
    weightsPerObs_eq hC (obsWeights_default hw) (nonnegWeights_default hw0)
  -- utilities along the coordinate
  have hu : ∀ d r, HasDerivAt (fun t => ∑ k, X r d k * update θ q t k) (X r d q) (θ q) := by
    intro d r
    have : HasDerivAt (fun t => ∑ k, X r d k * update θ q t k)
        (∑ k, X r d k * (if k = q then 1 else 0)) (θ q) := by
      refine HasDerivAt.fun_sum fun k _ => HasDerivAt.const_mul _ ?_
      by_cases hk : k = q
      · subst hk; simpa using hasDerivAt_id' (θ k)
      · simpa [hk] using hasDerivAt_const (θ q) (θ k)
    simpa using this
  -- sequence probabilities
  have hS : ∀ m d, HasDerivAt
      (fun t => expandedSequenceProbs (kernelProbs (update θ q t) X B) choice C m d)
      (expandedSequenceProbs (kernelProbs θ X B) choice C m d *
        ∑ r, ((if g r = m then 1 else 0) * (choice r - kernelProbs θ X B r d)) * X r d q) (θ q) := by
    intro m d
    have h1 := ll_hasDerivAt hB hc (w := fun r => if g r = m then 1 else 0)
      (fun r s hrs => by rw [hfg r s hrs]) (h := fun t r => ∑ k, X r d k * update θ q t k)
      (h' := fun r => X r d q) (t := θ q) (hu d) (by simpa using fun r => hb r d)
    have h2 := h1.exp
    simp only [update_eq_self] at h2
    simp only [expandedSequenceProbs_eq_exp hC]
    exact h2
  have hL : ∀ m, HasDerivAt (fun t => Real.log (sequenceProbs (kernelProbs (update θ q t) X B)
      choice C m)) (drawMean (fun d => expandedSequenceProbs (kernelProbs θ X B) choice C m d *
        ∑ r, ((if g r = m then 1 else 0) * (choice r - kernelProbs θ X B r d)) * X r d q) /
          sequenceProbs (kernelProbs θ X B) choice C m) (θ q) := by
    intro m
    have h1 : HasDerivAt (fun t => sequenceProbs (kernelProbs (update θ q t) X B) choice C m)
        (drawMean fun d => expandedSequenceProbs (kernelProbs θ X B) choice C m d *
        ∑ r, ((if g r = m then 1 else 0) * (choice r - kernelProbs θ X B r d)) * X r d q) (θ q) :=
      (HasDerivAt.fun_sum fun d _ => hS m d).div_const _
    have h2 := h1.log (drawMean_pos fun d => expandedSequenceProbs_pos _ _ _ _ _).ne'
    simpa only [update_eq_self] using h2
  have hLL := HasDerivAt.fun_sum (u := Finset.univ) fun m _ =>
    (hL m).const_mul (weightsPerObs C (defaultWeights weights) m)
  have key : (∑ m, weightsPerObs C (defaultWeights weights) m *
      (drawMean (fun d => expandedSequenceProbs (kernelProbs θ X B) choice C m d *
        ∑ r, ((if g r = m then 1 else 0) * (choice r - kernelProbs θ X B r d)) * X r d q) /
          sequenceProbs (kernelProbs θ X B) choice C m)) =
      drawMean fun d => ∑ r, scaledError (kernelProbs θ X B) choice C r d * X r d q *
        defaultWeights weights r := by
    simp only [drawMean, scaledError, mulVec_indicates hC, ← hww]
    set S := expandedSequenceProbs (kernelProbs θ X B) choice C
    set T := sequenceProbs (kernelProbs θ X B) choice C
    set W := weightsPerObs C (defaultWeights weights)
    set p := kernelProbs θ X B
    have h1 : ∀ d m, S m d * ∑ r, ((if g r = m then 1 else 0) * (choice r - p r d)) * X r d q =
        ∑ r with g r = m, S (g r) d * ((choice r - p r d) * X r d q) := by
      intro d m
      rw [Finset.sum_filter, Finset.mul_sum]
      refine Finset.sum_congr rfl fun r _ => ?_
      split_ifs with h
      · rw [h]; ring
      · ring
    simp only [h1]
    have h2 : ∀ d, ∑ r, (choice r - p r d) * (S (g r) d / T (g r)) * X r d q * W (g r) =
        ∑ m, ∑ r with g r = m, (choice r - p r d) * (S (g r) d / T (g r)) * X r d q * W (g r) :=
      fun d => (Finset.sum_fiberwise_of_maps_to (fun r _ => Finset.mem_univ (g r)) _).symm
    simp only [h2]
    rw [Finset.sum_comm, Finset.sum_div]
    refine Finset.sum_congr rfl fun m _ => ?_
    rw [div_div, mul_comm (Fintype.card D : ℝ), ← div_div, ← mul_div_assoc]
    congr 1
    rw [Finset.sum_div, Finset.mul_sum]
    refine Finset.sum_congr rfl fun d _ => ?_
    rw [Finset.sum_div, Finset.mul_sum]
    refine Finset.sum_congr rfl fun r hr => ?_
    rw [(Finset.mem_filter.1 hr).2]; ring
  rw [key] at hLL
  cases ridge with
  | none => simpa [mixedLogLikelihood, mixedGradient, ridgeGrad] using hLL
  | some ρ =>
    have h3 := hLL.sub ((sum_sq_hasDerivAt θ q).const_mul ρ)
    refine (h3.congr_deriv ?_).congr_of_eventuallyEq (Filter.Eventually.of_forall fun t => ?_)
    · simp only [mixedGradient, ridgeGrad]; ring
    · simp [mixedLogLikelihood]

/-- **C45**, the function handed to the optimizer: minus the simulated log-likelihood, and the partial derivatives
of minus the log-likelihood in the free parameters, with zeros exactly where parameters are constrained. -/
theorem mixed_neg_gradient [Nonempty R] [Nonempty D] {B : Matrix R O ℝ} {f : R → O}
    (hB : Indicates B f) {C : Matrix R M ℝ} {g : R → M} (hC : Indicates C g)
    (hfg : PanelData f g) {choice : R → ℝ} {c : O → R} (hc : OneChoice f choice c)
    {weights : Option (R → ℝ)} (hw : ObsWeights g weights) (hw0 : NonnegWeights weights)
    (θ : P → ℝ) (X : R → D → P → ℝ) (ridge : Option ℝ)
    (hb : ∀ r d, |∑ q, X r d q * θ q| < 700) (constrained : Option (List P)) :
    (mixedNegLLAndGradient θ X B C choice constrained ridge weights).1 =
        -mixedLogLikelihood θ X B C choice ridge weights ∧
      ∀ q, ((∀ l, constrained = some l → q ∉ l) →
          HasDerivAt (fun t => -mixedLogLikelihood (update θ q t) X B C choice ridge weights)
            ((mixedNegLLAndGradient θ X B C choice constrained ridge weights).2 q) (θ q)) ∧
        ∀ l, constrained = some l → q ∈ l →
          (mixedNegLLAndGradient θ X B C choice constrained ridge weights).2 q = 0 := by
  have hg := mixed_gradient hB hC hfg hc hw hw0 θ X ridge hb
  cases constrained with
  | none =>
    refine ⟨by simp [mixedNegLLAndGradient], fun q => ⟨fun _ => ?_, fun l h => by cases h⟩⟩
    simpa [mixedNegLLAndGradient] using (hg q).fun_neg
  | some l =>
    refine ⟨by simp [mixedNegLLAndGradient], fun q => ⟨fun h => ?_, fun l' h hq => ?_⟩⟩
    · simpa [mixedNegLLAndGradient, h l rfl] using (hg q).fun_neg
    · cases h
      simp [mixedNegLLAndGradient, hq]

/-! ## C41, mixed part: the BHHH matrix -/

/-- **C41** (mixed, no penalty). -/
theorem mixed_bhhh_nsd [Nonempty R] {C : Matrix R M ℝ} {g : R → M} (hC : Indicates C g)
    (θ : P → ℝ) (X : R → D → P → ℝ) (B : Matrix R O ℝ) (choice : R → ℝ)
    {weights : Option (R → ℝ)} (hw0 : NonnegWeights weights) :
    SymmNSD (mixedBHHH θ X B C choice none weights) := by
  obtain ⟨h1, h2⟩ := gram_psd (mixedScores θ X B C choice)
    (weightsPerObs_nonneg hC (nonnegWeights_default hw0))
  simp only [mixedBHHH]
  refine ⟨by rw [Matrix.transpose_smul, h1], fun x => ?_⟩
  rw [Matrix.smul_mulVec, dotProduct_smul]
  simpa using h2 x

/-- With a ridge penalty the code adds `2 * ridge` to the diagonal of the negative semidefinite
approximation. -/
theorem mixed_bhhh_ridge [Nonempty R] (θ : P → ℝ) (X : R → D → P → ℝ) (B : Matrix R O ℝ)
    (C : Matrix R M ℝ) (choice : R → ℝ) (weights : Option (R → ℝ)) (ρ : ℝ) :
    mixedBHHH θ X B C choice (some ρ) weights =
      mixedBHHH θ X B C choice none weights + (2 * ρ) • (1 : Matrix P P ℝ) := by
  simp only [mixedBHHH]
  ext i j
  simp only [Matrix.smul_apply, Matrix.sub_apply, Matrix.add_apply, smul_eq_mul]
  ring

/-- **C41** is false of the mixed function with a penalty: whenever there is a direction in which no
individual has a score (for instance more parameters than individuals), the matrix returned for a
positive penalty is not negative semidefinite. -/
theorem mixed_bhhh_ridge_not_nsd [Nonempty R] (θ : P → ℝ) (X : R → D → P → ℝ) (B : Matrix R O ℝ)
    (C : Matrix R M ℝ) (choice : R → ℝ) (weights : Option (R → ℝ)) {ρ : ℝ} (hρ : 0 < ρ)
    {x : P → ℝ} (hx : x ≠ 0) (hGx : mixedScores θ X B C choice *ᵥ x = 0) :
    ¬ SymmNSD (mixedBHHH θ X B C choice (some ρ) weights) := by
  rintro ⟨-, h⟩
  have h1 := h x
  rw [mixed_bhhh_ridge, Matrix.add_mulVec, dotProduct_add, Matrix.smul_mulVec, Matrix.one_mulVec,
    dotProduct_smul] at h1
  have h0 : mixedBHHH θ X B C choice none weights *ᵥ x = 0 := by
    simp only [mixedBHHH]
    rw [Matrix.smul_mulVec, ← Matrix.mulVec_mulVec]
    have : (Matrix.of fun m q => weightsPerObs C (defaultWeights weights) m *
        mixedScores θ X B C choice m q) *ᵥ x = 0 := by
      funext m
      have hm := congrFun hGx m
      simp only [mulVec, dotProduct, Pi.zero_apply] at hm
      simp only [mulVec, dotProduct, Matrix.of_apply, mul_assoc, ← Finset.mul_sum, hm, mul_zero,
        Pi.zero_apply]
    rw [this]; simp
  rw [h0, dotProduct_zero, zero_add, smul_eq_mul] at h1
  have h2 : 0 < x ⬝ᵥ x := by
    simp only [dotProduct]
    obtain ⟨q, hq⟩ := Function.ne_iff.1 hx
    exact Finset.sum_pos' (fun _ _ => mul_self_nonneg _) ⟨q, Finset.mem_univ _, mul_self_pos.2 hq⟩
  nlinarith [mul_pos (mul_pos two_pos hρ) h2]

/-- The weighted scores add up to the gradient. -/
theorem mixed_scores_sum [Nonempty R] {C : Matrix R M ℝ} {g : R → M} (hC : Indicates C g)
    {weights : Option (R → ℝ)} (hw : ObsWeights g weights) (hw0 : NonnegWeights weights)
    (θ : P → ℝ) (X : R → D → P → ℝ) (B : Matrix R O ℝ) (choice : R → ℝ) (q : P) :
    ∑ m, weightsPerObs C (defaultWeights weights) m * mixedScores θ X B C choice m q =
      mixedGradient θ X B C choice none weights q := by
  have hww : ∀ r, weightsPerObs C (defaultWeights weights) (g r) = defaultWeights weights r :=
    weightsPerObs_eq hC (obsWeights_default hw) (nonnegWeights_default hw0)
  simp only [mixedScores, mixedGradient, ridgeGrad, Matrix.mul_apply, transpose_apply, hC _ _,
    Matrix.of_apply, ite_mul, one_mul, zero_mul, ← Finset.sum_filter, drawMean]
  rw [Finset.sum_comm, Finset.sum_div,
    ← Finset.sum_fiberwise_of_maps_to (t := Finset.univ) (g := g) (fun r _ => Finset.mem_univ _)]
  refine Finset.sum_congr rfl fun m _ => ?_
  rw [Finset.mul_sum]
  refine Finset.sum_congr rfl fun r hr => ?_
  rw [← (Finset.mem_filter.1 hr).2, hww, ← mul_div_assoc, Finset.mul_sum]
  congr 1
  exact Finset.sum_congr rfl fun d _ => by ring

/-! ## C46: zero standard deviations; predictions -/

/-- **C46**: with zero standard deviations every draw gives the MNL probabilities. -/
theorem mixed_zero_sd_probs (X : Matrix R K ℝ) (draws : J → M → D → ℝ) (pos : J → K)
    (C : Matrix R M ℝ) (B : Matrix R O ℝ) (β : K → ℝ) (ids : R → ι) (rta : Matrix R A ℝ) (r : R)
    (d : D) :
    kernelProbs (Sum.elim β fun _ => 0) (expandedDesign X draws pos C) B r d =
      modelProbs (S := Empty) (I := Empty) β X ids B rta mnlTransform none none r := by
  simp only [kernelProbs, modelProbs, mnlTransform]
  congr 1
  funext r
  rw [Fintype.sum_sum_type]
  simp [expandedDesign, mulVec, dotProduct]

/-- **C46**: with zero standard deviations the simulated log-likelihood is the MNL log-likelihood. -/
theorem mixed_zero_sd_loglik [Nonempty R] [Nonempty D] {B : Matrix R O ℝ} {f : R → O}
    (hB : Indicates B f) {C : Matrix R M ℝ} {g : R → M} (hC : Indicates C g) {choice : R → ℝ}
    {weights : Option (R → ℝ)} (hw : ObsWeights g weights) (hw0 : NonnegWeights weights)
    (X : Matrix R K ℝ) (draws : J → M → D → ℝ) (pos : J → K) (β : K → ℝ)
    (ids : R → ι) (rta : Matrix R A ℝ) (ridge : Option ℝ) :
    mixedLogLikelihood (Sum.elim β fun _ => 0) (expandedDesign X draws pos C) B C choice ridge
        weights =
      calcLogLikelihood (S := Empty) (I := Empty) β X ids B rta choice mnlTransform none none ridge
        weights := by
  have hww : ∀ r, weightsPerObs C (defaultWeights weights) (g r) = defaultWeights weights r :=
    weightsPerObs_eq hC (obsWeights_default hw) (nonnegWeights_default hw0)
  set p := modelProbs (S := Empty) (I := Empty) β X ids B rta mnlTransform none none with hp
  have h1 : ∀ m, Real.log (sequenceProbs (kernelProbs (Sum.elim β fun _ => 0)
      (expandedDesign X draws pos C) B) choice C m) = ∑ r with g r = m, choice r * Real.log (p r) := by
    intro m
    simp only [sequenceProbs, expandedSequenceProbs_eq_exp hC,
      mixed_zero_sd_probs X draws pos C B β ids rta, ← hp]
    rw [drawMean_const, Real.log_exp, Finset.sum_filter]
    refine Finset.sum_congr rfl fun r _ => ?_
    split_ifs <;> ring
  have h2 : ∑ m, weightsPerObs C (defaultWeights weights) m * Real.log (sequenceProbs (kernelProbs
      (Sum.elim β fun _ => 0) (expandedDesign X draws pos C) B) choice C m) =
      ∑ r, choice r * (defaultWeights weights r * Real.log (p r)) := by
    rw [← Finset.sum_fiberwise_of_maps_to (t := Finset.univ) (g := g) (fun r _ => Finset.mem_univ _)]
    refine Finset.sum_congr rfl fun m _ => ?_
    rw [h1, Finset.mul_sum]
    refine Finset.sum_congr rfl fun r hr => ?_
    rw [← (Finset.mem_filter.1 hr).2, hww]; ring
  simp only [mixedLogLikelihood, calcLogLikelihood, h2, sumSqOpt, Fintype.sum_sum_type, ← hp]
  cases ridge <;> simp

/-- **C46** (predictions): the long probabilities returned by `predict` for a mixed logit are the
averages over the draws of logit probabilities with the individual's random coefficients, are
positive, and sum to one over every observation. -/
theorem mixed_predict_long [Nonempty D] {B : Matrix R O ℝ} {f : R → O} (hB : Indicates B f)
    {C : Matrix R M ℝ} {g : R → M} (hC : Indicates C g) (pos : List K)
    (mean : K → ℝ) (sd : Fin pos.length → ℝ) (X : Matrix R K ℝ) (ids : R → ι) (rta : Matrix R A ℝ)
    (drawList : List (M → D → ℝ)) (hlen : pos.length = drawList.length) (h0 : drawList ≠ []) :
    ∃ l : R → ℝ,
      mixedPredict pos (Sum.elim mean sd) X ids B rta C drawList none true = .ok (.inl l) ∧
      (∀ r, l r = average fun d => clippedLogit f (fun s => ∑ k, X s k *
        randomCoef mean sd pos.get (fun j => drawList.get (j.cast hlen)) (g s) d k) r) ∧
      (∀ r, 0 < l r) ∧ ∀ o ∈ Set.range f, ∑ r ∈ rowsOf f o, l r = 1 := by
  have hk : ∀ r d, kernelProbs (Sum.elim mean sd) (expandedDesign X
      (fun j => drawList.get (j.cast hlen)) pos.get C) B r d = clippedLogit f (fun s => ∑ k, X s k *
        randomCoef mean sd pos.get (fun j => drawList.get (j.cast hlen)) (g s) d k) r := by
    intro r d
    simp only [kernelProbs, expanded_utility hC]
    exact longProbs_eq_clippedLogit hB _ _
  refine ⟨fun r => drawMean (kernelProbs (Sum.elim mean sd) (expandedDesign X
    (fun j => drawList.get (j.cast hlen)) pos.get C) B r), ?_, fun r => ?_, fun r => ?_, ?_⟩
  · unfold mixedPredict
    rw [(createExpandedDesign_contract X drawList pos C).2.2 hlen h0]
    rfl
  · exact (drawMean_eq _).trans (congrArg average (funext fun d => hk r d))
  · exact drawMean_pos fun d => longProbs_pos hB _ _
  · rintro o ⟨r0, rfl⟩
    simp only [drawMean]
    rw [← Finset.sum_div, Finset.sum_comm]
    simp only [kernelProbs, longProbs_sum hB]
    simp

/-- `predict` for a mixed logit with a choice column and `return_long_probs=True` (documented to return
both the chosen and the long probabilities) fails: `AttributeError`. -/
theorem mixed_predict_both_fails {B : Matrix R O ℝ} {C : Matrix R M ℝ} (pos : List K)
    (coefs : K ⊕ Fin pos.length → ℝ) (X : Matrix R K ℝ) (ids : R → ι) (rta : Matrix R A ℝ)
    (drawList : List (M → D → ℝ)) (hlen : pos.length = drawList.length) (h0 : drawList ≠ [])
    (chosen : Matrix R O ℝ) :
    mixedPredict pos coefs X ids B rta C drawList (some chosen) true = .error .attributeError := by
  unfold mixedPredict
  rw [(createExpandedDesign_contract X drawList pos C).2.2 hlen h0]
  rfl

/-- **C46** (chosen probabilities): with a choice column and `return_long_probs=False`, `predict`
returns the draw-averaged probability of the chosen row of each observation. -/
theorem mixed_predict_chosen [Nonempty D] {B : Matrix R O ℝ} {f : R → O} (hB : Indicates B f)
    {C : Matrix R M ℝ} {g : R → M} (hC : Indicates C g) (pos : List K)
    (mean : K → ℝ) (sd : Fin pos.length → ℝ) (X : Matrix R K ℝ) (ids : R → ι) (rta : Matrix R A ℝ)
    (drawList : List (M → D → ℝ)) (hlen : pos.length = drawList.length) (h0 : drawList ≠ [])
    {choice : R → ℝ} {c : O → R} (hc : OneChoice f choice c) :
    mixedPredict pos (Sum.elim mean sd) X ids B rta C drawList
      (some (Matrix.of fun r o => B r o * choice r)) false =
      .ok (.inr fun o => average fun d => clippedLogit f (fun s => ∑ k, X s k *
        randomCoef mean sd pos.get (fun j => drawList.get (j.cast hlen)) (g s) d k) (c o)) := by
  unfold mixedPredict
  rw [(createExpandedDesign_contract X drawList pos C).2.2 hlen h0]
  have key : ∀ o d, chosenProbs B (Matrix.of fun r o => B r o * choice r)
      (fun r => ∑ q, expandedDesign X (fun j => drawList.get (j.cast hlen)) pos.get C r d q *
        (Sum.elim mean sd) q) o =
      clippedLogit f (fun s => ∑ k, X s k *
        randomCoef mean sd pos.get (fun j => drawList.get (j.cast hlen)) (g s) d k) (c o) := by
    intro o d
    rw [← longProbs_eq_clippedLogit hB]
    simp only [expanded_utility hC]
    exact chosenProbs_eq hB hc (fun r o => rfl) _ o
  have e : ∀ o, (drawMean fun d => chosenProbs B (Matrix.of fun r o => B r o * choice r)
      (fun r => ∑ q, expandedDesign X (fun j => drawList.get (j.cast hlen)) pos.get C r d q *
        (Sum.elim mean sd) q) o) = average fun d => clippedLogit f (fun s => ∑ k, X s k *
        randomCoef mean sd pos.get (fun j => drawList.get (j.cast hlen)) (g s) d k) (c o) := by
    intro o
    rw [drawMean_eq]
    exact congrArg average (funext fun d => key o d)
  change Except.ok (Sum.inr fun o => drawMean fun d => chosenProbs B _ _ o) = _
  exact congrArg (fun z => Except.ok (Sum.inr z)) (funext e)

/-! ## Concrete cases -/

section Examples

/-- Three observations of two rows; individual 0 made the first two choices, individual 1 the third. -/
def exMixObs : Fin 6 → Fin 3 := ![0, 0, 1, 1, 2, 2]
/-- The individuals. -/
def exMixInd : Fin 6 → Fin 2 := ![0, 0, 0, 0, 1, 1]
/-- The first row of every observation is chosen. -/
def exMixChoice : Fin 6 → ℝ := ![1, 0, 1, 0, 1, 0]

theorem exMix_oneChoice : OneChoice exMixObs exMixChoice ![0, 2, 4] where
  mem o := by fin_cases o <;> rfl
  one o := by fin_cases o <;> simp [exMixChoice]
  zero r := by fin_cases r <;> simp [exMixChoice, exMixObs]

theorem exMix_panel : PanelData exMixObs exMixInd := by
  intro r s; revert r s; unfold exMixObs exMixInd; decide

/-- Rows to observations. -/
def exMixB : Matrix (Fin 6) (Fin 3) ℝ := Matrix.of fun r o => if exMixObs r = o then 1 else 0
/-- Rows to individuals. -/
def exMixC : Matrix (Fin 6) (Fin 2) ℝ := Matrix.of fun r m => if exMixInd r = m then 1 else 0
/-- A three-dimensional design with two draws and two columns. -/
def exMixX : Fin 6 → Fin 2 → Fin 2 → ℝ := fun r d _ => (r.val : ℝ) + d.val
/-- Weights of the individuals, one entry per row. -/
def exMixW : Fin 6 → ℝ := ![2, 2, 2, 2, 3, 3]

theorem exMixB_indicates : Indicates exMixB exMixObs := fun _ _ => rfl
theorem exMixC_indicates : Indicates exMixC exMixInd := fun _ _ => rfl

theorem exMixW_ind : ObsWeights exMixInd (some exMixW) := by
  intro w hw r s h
  obtain rfl := Option.some.inj hw
  revert h
  fin_cases r <;> fin_cases s <;> simp [exMixInd, exMixW]

theorem exMixW_nonneg : NonnegWeights (some exMixW) := by
  intro w hw r
  obtain rfl := Option.some.inj hw
  fin_cases r <;> simp [exMixW]

/-- The hypotheses of `mixed_gradient` (and of the theorems on the log-likelihood) are met by panel
data with two individuals, individual weights and two draws. -/
example (ridge : Option ℝ) :
    HasPartials (fun θ => mixedLogLikelihood θ exMixX exMixB exMixC exMixChoice ridge (some exMixW))
      (mixedGradient (fun _ => 1) exMixX exMixB exMixC exMixChoice ridge (some exMixW))
      (fun _ => 1) := by
  refine mixed_gradient exMixB_indicates exMixC_indicates exMix_panel exMix_oneChoice exMixW_ind
    exMixW_nonneg _ _ ridge fun r d => ?_
  have h1 : ((r : ℕ) : ℝ) ≤ 5 := by exact_mod_cast (by omega : (r : ℕ) ≤ 5)
  have h2 : ((d : ℕ) : ℝ) ≤ 1 := by exact_mod_cast (by omega : (d : ℕ) ≤ 1)
  have h3 : (0 : ℝ) ≤ (r : ℕ) := Nat.cast_nonneg _
  have h4 : (0 : ℝ) ≤ (d : ℕ) := Nat.cast_nonneg _
  rw [Fin.sum_univ_two, abs_lt]
  simp only [exMixX]
  constructor <;> linarith

/-- `mixed_neg_gradient` applies to the same data. -/
example (ridge : Option ℝ) :
    (mixedNegLLAndGradient (fun _ => 1) exMixX exMixB exMixC exMixChoice (some [0]) ridge (some exMixW)).1 =
      -mixedLogLikelihood (fun _ => 1) exMixX exMixB exMixC exMixChoice ridge (some exMixW) := by
  refine (mixed_neg_gradient exMixB_indicates exMixC_indicates exMix_panel exMix_oneChoice exMixW_ind
    exMixW_nonneg _ _ ridge (fun r d => ?_) (some [0])).1
  have h1 : ((r : ℕ) : ℝ) ≤ 5 := by exact_mod_cast (by omega : (r : ℕ) ≤ 5)
  have h2 : ((d : ℕ) : ℝ) ≤ 1 := by exact_mod_cast (by omega : (d : ℕ) ≤ 1)
  have h3 : (0 : ℝ) ≤ (r : ℕ) := Nat.cast_nonneg _
  have h4 : (0 : ℝ) ≤ (d : ℕ) := Nat.cast_nonneg _
  rw [Fin.sum_univ_two, abs_lt]
  simp only [exMixX]
  constructor <;> linarith

/-- `mixed_bhhh_ridge_not_nsd` applies, for instance, to a design with a column of zeros. -/
example : ¬ SymmNSD (mixedBHHH (fun _ => 1)
    (fun r (_ : Fin 2) (q : Fin 2) => if q = 0 then (r.val : ℝ) else 0)
    exMixB exMixC exMixChoice (some 1) none) := by
  refine mixed_bhhh_ridge_not_nsd _ _ _ _ _ _ one_pos (x := ![0, 1]) (fun h => ?_) ?_
  · simpa using congrFun h 1
  · funext m
    simp [mixedScores, mulVec, dotProduct, Matrix.mul_apply, drawMean]

/-- Draws of two individuals for one mixed variable, design with two columns: the utility of row 4
(individual 1) under draw 1 is `x₀ μ₀ + x₁ (μ₁ + σ · draw)`. -/
example (X : Matrix (Fin 6) (Fin 2) ℝ) (draws : Fin 1 → Fin 2 → Fin 2 → ℝ) (mean : Fin 2 → ℝ)
    (sd : Fin 1 → ℝ) :
    ∑ q, expandedDesign X draws (fun _ => 1) exMixC 4 1 q * Sum.elim mean sd q =
      X 4 0 * mean 0 + X 4 1 * (mean 1 + sd 0 * draws 0 1 1) := by
  refine (expanded_utility exMixC_indicates X draws (fun _ => 1) mean sd 4 1).trans ?_
  rw [Fin.sum_univ_two]
  simp [randomCoef, exMixInd]

example : convertMixingNames ["cost", "time"] ["asc", "time", "cost", "time"] = .ok [2, 1] := by decide

end Examples

end Pylogit
