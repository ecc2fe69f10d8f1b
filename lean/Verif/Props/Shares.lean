import Verif.Spec.Shares
import Verif.Props.Concavity
import Verif.Props.Nested

/-!
# C98: converged estimates reproduce observed totals and market shares
# C99: removing alternatives
-/

set_option linter.unusedSectionVars false

open Finset Matrix Function

namespace Pylogit

open Spec

variable {R O A K S I ι : Type} [Fintype R] [DecidableEq R] [Fintype O] [DecidableEq O]
  [Fintype K] [DecidableEq K] [Fintype S] [DecidableEq S] [Fintype I] [DecidableEq I] {n : ℕ}

/-! ## The score of a column -/

private theorem score_eq {f : R → O} {choice : R → ℝ} {c : O → R} (hc : OneChoice f choice c)
    (weights : Option (R → ℝ)) (p x : R → ℝ) :
    ∑ r, dLLdh weights choice p r * x r =
      observedTotal (weights.getD fun _ => 1) x c - predictedTotal (weights.getD fun _ => 1) x p := by
  have hs : ∑ r, choice r * ((weights.getD fun _ => 1) r * x r) = observedTotal (weights.getD fun _ => 1) x c := by
    unfold observedTotal
    rw [← Finset.sum_fiberwise_of_maps_to (t := Finset.univ) (g := f) (fun r _ => Finset.mem_univ _)]
    refine Finset.sum_congr rfl fun o _ => ?_
    rw [Finset.sum_eq_single (c o)]
    · rw [hc.one, one_mul]
    · intro r hr hne
      rw [hc.zero r (by rw [(Finset.mem_filter.1 hr).2]; exact hne), zero_mul]
    · intro hn; exact absurd (Finset.mem_filter.2 ⟨Finset.mem_univ (c o), hc.mem o⟩) hn
  rw [← hs, predictedTotal, ← Finset.sum_sub_distrib]
  refine Finset.sum_congr rfl fun r _ => ?_
  simp only [dLLdh, defaultWeights]
  ring

private theorem observedTotal_indicator [DecidableEq A] (w : R → ℝ) (alt : R → A) (c : O → R) (j : A) :
    observedTotal w (fun r => if alt r = j then 1 else 0) c = observedShare w alt c j := by
  simp [observedTotal, observedShare, Finset.sum_filter]

private theorem predictedTotal_indicator [DecidableEq A] (w : R → ℝ) (alt : R → A) (p : R → ℝ) (j : A) :
    predictedTotal w (fun r => if alt r = j then 1 else 0) p = predictedShare w alt p j := by
  simp [predictedTotal, predictedShare, Finset.sum_filter]

/-- Over all alternatives the predicted numbers of choices add up to the observed ones, for any logit-type
probabilities. -/
theorem shares_total {M : Matrix R O ℝ} {f : R → O} (hM : Indicates M f) {choice : R → ℝ} {c : O → R}
    (hc : OneChoice f choice c) {weights : Option (R → ℝ)} (hw : ObsWeights f weights) [Fintype A]
    [DecidableEq A] (alt : R → A) (h : R → ℝ) :
    ∑ j, predictedShare (weights.getD fun _ => 1) alt (longProbs M h) j =
      ∑ j, observedShare (weights.getD fun _ => 1) alt c j := by
  set w := weights.getD fun _ => 1 with hwd
  have hw' : ∀ r s, f r = f s → w r = w s := obsWeights_default hw
  have h1 : ∑ j, predictedShare w alt (longProbs M h) j = ∑ r, w r * longProbs M h r := by
    unfold predictedShare
    exact Finset.sum_fiberwise_of_maps_to (g := alt) (fun r _ => Finset.mem_univ _) _
  have h2 : ∑ j, observedShare w alt c j = ∑ o, w (c o) := by
    unfold observedShare
    exact Finset.sum_fiberwise_of_maps_to (g := fun o => alt (c o)) (fun r _ => Finset.mem_univ _) _
  rw [h1, h2, ← Finset.sum_fiberwise_of_maps_to (t := Finset.univ) (g := f) (fun r _ => Finset.mem_univ _)]
  refine Finset.sum_congr rfl fun o _ => ?_
  have : ∀ r ∈ univ.filter (fun r => f r = o), w r * longProbs M h r = w (c o) * longProbs M h r := by
    intro r hr
    rw [hw' r (c o) (by rw [hc.mem, (Finset.mem_filter.1 hr).2])]
  rw [Finset.sum_congr rfl this, ← Finset.mul_sum]
  have hs := longProbs_sum hM h (c o)
  rw [hc.mem] at hs
  rw [show ∑ r ∈ univ.filter (fun r => f r = o), longProbs M h r = 1 from hs, mul_one]

/-! ## Multinomial logit -/

/-- **C98**, MNL.  For every variable, the observed total minus the total the model predicts is the entry of the
gradient, plus the ridge term.  So where the gradient is zero and there is no penalty, the totals agree;
where an optimiser stopped at a gradient of at most `ε`, they agree up to `ε`. -/
theorem mnl_totals {M : Matrix R O ℝ} {f : R → O} {choice : R → ℝ}
    {c : O → R} (hc : OneChoice f choice c) (weights : Option (R → ℝ)) (X : Matrix R K ℝ) (ids : R → ι)
    (rta : Matrix R A ℝ) (β : K → ℝ) (ridge : Option ℝ) (k : K) :
    let p := modelProbs (S := Empty) (I := Empty) β X ids M rta mnlTransform none none
    observedTotal (weights.getD fun _ => 1) (fun r => X r k) c -
        predictedTotal (weights.getD fun _ => 1) (fun r => X r k) p =
      gradientNone (S := Empty) (I := Empty) mnlDerivs X choice p weights ridge β k +
        2 * ridge.getD 0 * β k := by
  intro p
  rw [gradientNone, ridgeGrad_eq, ← score_eq hc]
  simp only [mnlDerivs, Matrix.one_mul, vecMul, dotProduct]
  ring

/-- **C98**, MNL, for a best parameter vector: where the unpenalised log-likelihood has a (local) maximum, observed
and predicted totals of every variable agree. -/
theorem mnl_maximum_totals {M : Matrix R O ℝ} {f : R → O} (hM : Indicates M f) {choice : R → ℝ}
    {c : O → R} (hc : OneChoice f choice c) {weights : Option (R → ℝ)} (hw : ObsWeights f weights)
    (X : Matrix R K ℝ) (ids : R → ι) (rta : Matrix R A ℝ) (β : K → ℝ) (hb : ∀ r, |(X *ᵥ β) r| < 700)
    (hmax : IsLocalMax (fun β => calcLogLikelihood (S := Empty) (I := Empty) β X ids M rta choice mnlTransform
      none none none weights) β) (k : K) :
    observedTotal (weights.getD fun _ => 1) (fun r => X r k) c =
      predictedTotal (weights.getD fun _ => 1) (fun r => X r k)
        (modelProbs (S := Empty) (I := Empty) β X ids M rta mnlTransform none none) := by
  have hg := mnl_gradient hM hc hw X ids rta β none hb k
  have hl : IsLocalMax (fun t => calcLogLikelihood (S := Empty) (I := Empty) (update β k t) X ids M rta choice
      mnlTransform none none none weights) (β k) := by
    have hcont : ContinuousAt (fun t => update β k t) (β k) :=
      (continuous_const.update k continuous_id).continuousAt
    have hu : update β k (β k) = β := update_eq_self k β
    have := hcont.tendsto
    rw [hu] at this
    have h2 := this.eventually hmax
    unfold IsLocalMax IsMaxFilter
    simp only [hu]
    exact h2
  have h0 := hl.hasDerivAt_eq_zero hg
  have := mnl_totals hc weights X ids rta β none k (M := M)
  simp only [h0] at this
  simp at this
  linarith

/-- **C98**, MNL: if the `k`-th variable is the constant of alternative `j` (one on its rows, zero elsewhere), the
observed minus the predicted number of choices of `j` is the entry of the gradient, plus the ridge term. -/
theorem mnl_shares [DecidableEq A] {M : Matrix R O ℝ} {f : R → O} {choice : R → ℝ}
    {c : O → R} (hc : OneChoice f choice c) (weights : Option (R → ℝ)) (X : Matrix R K ℝ) (ids : R → ι)
    (rta : Matrix R A ℝ) (β : K → ℝ) (ridge : Option ℝ) (alt : R → A) (k : K) (j : A)
    (hk : ∀ r, X r k = if alt r = j then 1 else 0) :
    let p := modelProbs (S := Empty) (I := Empty) β X ids M rta mnlTransform none none
    observedShare (weights.getD fun _ => 1) alt c j - predictedShare (weights.getD fun _ => 1) alt p j =
      gradientNone (S := Empty) (I := Empty) mnlDerivs X choice p weights ridge β k +
        2 * ridge.getD 0 * β k := by
  intro p
  have := mnl_totals hc weights X ids rta β ridge k (M := M)
  simp only [hk] at this
  rw [observedTotal_indicator, predictedTotal_indicator] at this
  exact this

/-! ## Outside intercepts -/

private theorem alpha_score {f : R → O} {choice : R → ℝ} {c : O → R} (hc : OneChoice f choice c)
    (weights : Option (R → ℝ)) (p : R → ℝ) {rta : Matrix R (Fin (n + 1)) ℝ} {alt : R → Fin (n + 1)}
    (hA : Indicates rta alt) (ref : Fin (n + 1)) (i : Fin n) :
    (dLLdh weights choice p ᵥ* dhDAlpha ref rta) i =
      observedShare (weights.getD fun _ => 1) alt c (ref.succAbove i) -
        predictedShare (weights.getD fun _ => 1) alt p (ref.succAbove i) := by
  rw [← observedTotal_indicator, ← predictedTotal_indicator, ← score_eq hc]
  simp only [vecMul, dotProduct, dhDAlpha, hA _ _]

/-- **C98**, models with outside intercepts and no shape parameters (clog-log). -/
theorem clog_shares {M : Matrix R O ℝ} {f : R → O} {choice : R → ℝ} {c : O → R}
    (hc : OneChoice f choice c) (weights : Option (R → ℝ)) (X : Matrix R K ℝ) (ids : R → ι)
    {rta : Matrix R (Fin (n + 1)) ℝ} {alt : R → Fin (n + 1)} (hA : Indicates rta alt) (ref : Fin (n + 1))
    (a : Fin n → ℝ) (β : K → ℝ) (ridge : Option ℝ) (i : Fin n) :
    let p := modelProbs (S := Empty) β X ids M rta (clogTransform (some ref)) (some a) none
    observedShare (weights.getD fun _ => 1) alt c (ref.succAbove i) -
        predictedShare (weights.getD fun _ => 1) alt p (ref.succAbove i) =
      gradientIcpt (S := Empty) (clogDerivs ref rta (X *ᵥ β)) X choice p weights ridge a β (.inl i) +
        2 * ridge.getD 0 * a i := by
  intro p
  rw [gradientIcpt, ridgeGrad_eq, ← alpha_score hc weights p hA]
  simp only [clogDerivs, Sum.elim_inl]
  ring

/-- **C98**, scobit. -/
theorem scobit_shares {M : Matrix R O ℝ} {f : R → O} {choice : R → ℝ} {c : O → R}
    (hc : OneChoice f choice c) (weights : Option (R → ℝ)) (X : Matrix R K ℝ) (ids : R → ι)
    {rta : Matrix R (Fin (n + 1)) ℝ} {alt : R → Fin (n + 1)} (hA : Indicates rta alt) (ref : Fin (n + 1))
    (s : Fin (n + 1) → ℝ) (a : Fin n → ℝ) (β : K → ℝ) (ridge : Option ℝ) (i : Fin n) :
    let p := modelProbs β X ids M rta (scobitTransform (some ref)) (some a) (some s)
    observedShare (weights.getD fun _ => 1) alt c (ref.succAbove i) -
        predictedShare (weights.getD fun _ => 1) alt p (ref.succAbove i) =
      gradientBoth (scobitDerivs ref rta s (X *ᵥ β)) X choice p weights ridge s a β (.inr (.inl i)) +
        2 * ridge.getD 0 * a i := by
  intro p
  rw [gradientBoth, ridgeGrad_eq, ← alpha_score hc weights p hA]
  simp only [scobitDerivs, Sum.elim_inl, Sum.elim_inr]
  ring

/-- **C98**, uneven. -/
theorem uneven_shares {M : Matrix R O ℝ} {f : R → O} {choice : R → ℝ} {c : O → R}
    (hc : OneChoice f choice c) (weights : Option (R → ℝ)) (X : Matrix R K ℝ) (ids : R → ι)
    {rta : Matrix R (Fin (n + 1)) ℝ} {alt : R → Fin (n + 1)} (hA : Indicates rta alt) (ref : Fin (n + 1))
    (s : Fin (n + 1) → ℝ) (a : Fin n → ℝ) (β : K → ℝ) (ridge : Option ℝ) (i : Fin n) :
    let p := modelProbs β X ids M rta (unevenTransform (some ref)) (some a) (some s)
    observedShare (weights.getD fun _ => 1) alt c (ref.succAbove i) -
        predictedShare (weights.getD fun _ => 1) alt p (ref.succAbove i) =
      gradientBoth (unevenDerivs ref rta s (X *ᵥ β)) X choice p weights ridge s a β (.inr (.inl i)) +
        2 * ridge.getD 0 * a i := by
  intro p
  rw [gradientBoth, ridgeGrad_eq, ← alpha_score hc weights p hA]
  simp only [unevenDerivs, Sum.elim_inl, Sum.elim_inr]
  ring

/-- **C98**, asymmetric. -/
theorem asym_shares {M : Matrix R O ℝ} {f : R → O} {choice : R → ℝ} {c : O → R}
    (hc : OneChoice f choice c) (weights : Option (R → ℝ)) (X : Matrix R K ℝ) (ids : R → ι)
    {rta : Matrix R (Fin (n + 1)) ℝ} {alt : R → Fin (n + 1)} (hA : Indicates rta alt)
    (sref ref : Fin (n + 1)) (s : Fin n → ℝ) (a : Fin n → ℝ) (β : K → ℝ) (ridge : Option ℝ) (i : Fin n) :
    let p := modelProbs β X ids M rta (asymTransform sref (some ref)) (some a) (some s)
    observedShare (weights.getD fun _ => 1) alt c (ref.succAbove i) -
        predictedShare (weights.getD fun _ => 1) alt p (ref.succAbove i) =
      gradientBoth (asymDerivs sref ref rta s (X *ᵥ β)) X choice p weights ridge s a β (.inr (.inl i)) +
        2 * ridge.getD 0 * a i := by
  intro p
  rw [gradientBoth, ridgeGrad_eq, ← alpha_score hc weights p hA]
  simp only [asymDerivs, Sum.elim_inl, Sum.elim_inr]
  ring

/-- **C98**, the reference alternative: if the shares of all other alternatives are reproduced up to `ε`, its share
is reproduced up to `n * ε`; in particular exactly if the others are. -/
theorem reference_share {M : Matrix R O ℝ} {f : R → O} (hM : Indicates M f) {choice : R → ℝ} {c : O → R}
    (hc : OneChoice f choice c) {weights : Option (R → ℝ)} (hw : ObsWeights f weights)
    (alt : R → Fin (n + 1)) (h : R → ℝ) (ref : Fin (n + 1)) {ε : ℝ}
    (hε : ∀ i : Fin n, |observedShare (weights.getD fun _ => 1) alt c (ref.succAbove i) -
      predictedShare (weights.getD fun _ => 1) alt (longProbs M h) (ref.succAbove i)| ≤ ε) :
    |observedShare (weights.getD fun _ => 1) alt c ref -
      predictedShare (weights.getD fun _ => 1) alt (longProbs M h) ref| ≤ n * ε := by
  have ht := shares_total hM hc hw alt h
  rw [Fin.sum_univ_succAbove _ ref, Fin.sum_univ_succAbove _ ref] at ht
  have e : observedShare (weights.getD fun _ => 1) alt c ref -
      predictedShare (weights.getD fun _ => 1) alt (longProbs M h) ref =
      -∑ i : Fin n, (observedShare (weights.getD fun _ => 1) alt c (ref.succAbove i) -
        predictedShare (weights.getD fun _ => 1) alt (longProbs M h) (ref.succAbove i)) := by
    rw [Finset.sum_sub_distrib]
    linarith
  rw [e, abs_neg]
  refine (Finset.abs_sum_le_sum_abs _ _).trans ((Finset.sum_le_sum fun i _ => hε i).trans ?_)
  simp

/-- **C98**, models with outside intercepts, for a best parameter vector: where the unpenalised log-likelihood has a
(local) maximum in the intercepts, the shares of all alternatives are reproduced, the reference alternative's
included.  The transformation may be any that adds the intercept of the row's alternative. -/
theorem intercept_maximum_shares {M : Matrix R O ℝ} {f : R → O} (hM : Indicates M f) {choice : R → ℝ}
    {c : O → R} (hc : OneChoice f choice c) {weights : Option (R → ℝ)} (hw : ObsWeights f weights)
    (X : Matrix R K ℝ) (ids : R → ι) {rta : Matrix R (Fin (n + 1)) ℝ} {alt : R → Fin (n + 1)}
    (hA : Indicates rta alt) (ref : Fin (n + 1)) (T : Transform R (Fin (n + 1)) S (Fin n) ι)
    (shape : Option (S → ℝ)) (a : Fin n → ℝ) (β : K → ℝ) (h : R → ℝ)
    (hT : ∀ a : Fin n → ℝ, T (X *ᵥ β) ids rta shape (some a) = fun r =>
      h r + (Fin.insertNth (α := fun _ => ℝ) ref 0 a : Fin (n + 1) → ℝ) (alt r))
    (hb : ∀ r, |T (X *ᵥ β) ids rta shape (some a) r| < 700)
    (hmax : IsLocalMax (fun a => calcLogLikelihood β X ids M rta choice T (some a) shape none weights) a)
    (j : Fin (n + 1)) :
    observedShare (weights.getD fun _ => 1) alt c j = predictedShare (weights.getD fun _ => 1) alt
      (modelProbs β X ids M rta T (some a) shape) j := by
  have hJ : HasJacobian (fun a => T (X *ᵥ β) ids rta shape (some a)) (dhDAlpha ref rta) a := by
    intro r i
    simp only [hT]
    rw [dhDAlpha, hA]
    refine HasDerivAt.const_add _ ?_
    rcases Fin.eq_self_or_eq_succAbove ref (alt r) with hr | ⟨i', hr⟩
    · rw [hr]
      simp only [Fin.insertNth_apply_same]
      rw [if_neg (Fin.succAbove_ne ref i).symm]
      exact hasDerivAt_const _ _
    · rw [hr]
      simp only [Fin.insertNth_apply_succAbove, Fin.succAbove_right_inj]
      by_cases hi : i' = i
      · subst hi; simpa using hasDerivAt_id' (a i')
      · simpa [hi] using hasDerivAt_const (a i) (a i')
  have key := core_partials hM hc (obsWeights_default hw) hJ hb 0
  have hgap : ∀ i, observedShare (weights.getD fun _ => 1) alt c (ref.succAbove i) -
      predictedShare (weights.getD fun _ => 1) alt
        (modelProbs β X ids M rta T (some a) shape) (ref.succAbove i) = 0 := by
    intro i
    have hg := key i
    have hl : IsLocalMax (fun t => ∑ r, choice r * (defaultWeights weights r * Real.log
        (longProbs M (T (X *ᵥ β) ids rta shape (some (update a i t))) r)) - 0 * ∑ j, update a i t j ^ 2)
        (a i) := by
      have hcont : ContinuousAt (fun t => update a i t) (a i) :=
        (continuous_const.update i continuous_id).continuousAt
      have hu : update a i (a i) = a := update_eq_self i a
      have := hcont.tendsto
      rw [hu] at this
      have h2 := this.eventually hmax
      unfold IsLocalMax IsMaxFilter
      simp only [hu, zero_mul, sub_zero]
      exact h2
    have h0 := hl.hasDerivAt_eq_zero hg
    rw [← alpha_score hc weights _ hA ref i]
    simp only [mul_zero, zero_mul, sub_zero] at h0
    exact h0
  rcases Fin.eq_self_or_eq_succAbove ref j with rfl | ⟨i, rfl⟩
  · have := reference_share hM hc hw alt (T (X *ᵥ β) ids rta shape (some a)) j (ε := 0)
      (fun i => by rw [abs_nonpos_iff]; exact hgap i)
    simp only [mul_zero, abs_nonpos_iff] at this
    exact sub_eq_zero.1 this
  · exact sub_eq_zero.1 (hgap i)

/-- The four transformations with outside intercepts add the intercept of the row's alternative. -/
theorem transforms_add_intercepts (ids : R → ι) {rta : Matrix R (Fin (n + 1)) ℝ} {alt : R → Fin (n + 1)}
    (hA : Indicates rta alt) (ref sref : Fin (n + 1)) (v : R → ℝ) (s : Fin (n + 1) → ℝ) (η : Fin n → ℝ) :
    (∃ h : R → ℝ, ∀ a, clogTransform (S := Empty) (some ref) v ids rta none (some a) = fun r =>
      h r + (Fin.insertNth (α := fun _ => ℝ) ref 0 a : Fin (n + 1) → ℝ) (alt r)) ∧
    (∃ h : R → ℝ, ∀ a, scobitTransform (some ref) v ids rta (some s) (some a) = fun r =>
      h r + (Fin.insertNth (α := fun _ => ℝ) ref 0 a : Fin (n + 1) → ℝ) (alt r)) ∧
    (∃ h : R → ℝ, ∀ a, unevenTransform (some ref) v ids rta (some s) (some a) = fun r =>
      h r + (Fin.insertNth (α := fun _ => ℝ) ref 0 a : Fin (n + 1) → ℝ) (alt r)) ∧
    ∃ h : R → ℝ, ∀ a, asymTransform sref (some ref) v ids rta (some η) (some a) = fun r =>
      h r + (Fin.insertNth (α := fun _ => ℝ) ref 0 a : Fin (n + 1) → ℝ) (alt r) := by
  have hm : ∀ (x : Fin (n + 1) → ℝ) r, (rta *ᵥ x) r = x (alt r) := by
    intro x r
    simp [mulVec, dotProduct, hA _ _]
  refine ⟨⟨fun r => clogH (v r), fun a => ?_⟩,
    ⟨fun r => scobitH (Real.exp (s (alt r))) (v r), fun a => ?_⟩,
    ⟨fun r => unevenH (Real.exp (s (alt r))) (v r), fun a => ?_⟩,
    ⟨fun r => asymH (n + 1) (convertEtaToC sref η (alt r)) (v r), fun a => ?_⟩⟩
  · funext r; simp only [clogTransform, hm]; rfl
  · funext r; simp only [scobitTransform, hm]; rw [add_comm]; rfl
  · funext r; simp only [unevenTransform, hm]; rfl
  · funext r; simp only [asymTransform, hm]; rfl

/-! ## Removing alternatives -/

section Remove

variable {R' O' : Type} [Fintype R'] [DecidableEq R'] [Fintype O'] [DecidableEq O']

/-- **C99**.  Take some of the rows of a table (`e` says which), with the transformed utilities they had.  The
probability of a row is then its probability in the full table divided by the sum of those of the rows that
were kept in its observation: the probabilities of what was removed are shared out in proportion. -/
theorem probs_of_kept_rows {M : Matrix R O ℝ} {f : R → O} (hM : Indicates M f) {M' : Matrix R' O' ℝ}
    {f' : R' → O'} (hM' : Indicates M' f') {e : R' → R}
    (hf : ∀ r s, f' r = f' s ↔ f (e r) = f (e s)) (h : R → ℝ) (r : R') :
    longProbs M' (fun r => h (e r)) r =
      longProbs M h (e r) / ∑ s ∈ rowsOf f' (f' r), longProbs M h (e s) := by
  have hd : 0 < ∑ s ∈ rowsOf f (f (e r)), longExponentials h s := denom_pos f h (e r)
  have h1 : ∀ s ∈ rowsOf f' (f' r), longProbs M h (e s) =
      longExponentials h (e s) / ∑ s ∈ rowsOf f (f (e r)), longExponentials h s := by
    intro s hs
    have hs' : f' s = f' r := by simpa [rowsOf] using hs
    rw [longProbs_eq hM, (hf s r).1 hs']
  have h1r := h1 r (by simp [rowsOf])
  rw [Finset.sum_congr rfl h1, h1r, ← Finset.sum_div, div_div_div_cancel_right₀ hd.ne', longProbs_eq hM']
  rfl

/-- **C99**.  Ratios of the probabilities of two alternatives of an observation do not depend on which other
alternatives there are. -/
theorem ratios_of_kept_rows {M : Matrix R O ℝ} {f : R → O} (hM : Indicates M f) {M' : Matrix R' O' ℝ}
    {f' : R' → O'} (hM' : Indicates M' f') {e : R' → R}
    (hf : ∀ r s, f' r = f' s ↔ f (e r) = f (e s)) (h : R → ℝ) {r s : R'} (hrs : f' r = f' s) :
    longProbs M' (fun r => h (e r)) r / longProbs M' (fun r => h (e r)) s =
      longProbs M h (e r) / longProbs M h (e s) := by
  rw [probs_of_kept_rows hM hM' hf, probs_of_kept_rows hM hM' hf, hrs]
  have : 0 < ∑ t ∈ rowsOf f' (f' s), longProbs M h (e t) :=
    Finset.sum_pos (fun t _ => longProbs_pos hM h _) ⟨s, by simp [rowsOf]⟩
  rw [div_div_div_cancel_right₀ this.ne']

/-- **C99**.  Removing alternatives never lowers the probability of one that is kept, and raises it if an
alternative of the same observation was removed. -/
theorem kept_rows_gain {M : Matrix R O ℝ} {f : R → O} (hM : Indicates M f) {M' : Matrix R' O' ℝ}
    {f' : R' → O'} (hM' : Indicates M' f') {e : R' → R} (he : Injective e)
    (hf : ∀ r s, f' r = f' s ↔ f (e r) = f (e s)) (h : R → ℝ) (r : R') :
    longProbs M h (e r) ≤ longProbs M' (fun r => h (e r)) r ∧
      ((∃ q, f q = f (e r) ∧ q ∉ Set.range e) → longProbs M h (e r) < longProbs M' (fun r => h (e r)) r) := by
  have hp := longProbs_pos hM h (e r)
  have hpos : 0 < ∑ t ∈ rowsOf f' (f' r), longProbs M h (e t) :=
    Finset.sum_pos (fun t _ => longProbs_pos hM h _) ⟨r, by simp [rowsOf]⟩
  have himg : ∑ t ∈ rowsOf f' (f' r), longProbs M h (e t) =
      ∑ q ∈ (rowsOf f' (f' r)).map ⟨e, he⟩, longProbs M h q := by rw [Finset.sum_map]; rfl
  have hsub : (rowsOf f' (f' r)).map ⟨e, he⟩ ⊆ rowsOf f (f (e r)) := by
    intro q hq
    obtain ⟨t, ht, rfl⟩ := Finset.mem_map.1 hq
    have ht' : f' t = f' r := by simpa [rowsOf] using ht
    simpa [rowsOf] using (hf t r).1 ht'
  have hone := longProbs_sum hM h (e r)
  rw [probs_of_kept_rows hM hM' hf]
  constructor
  · rw [le_div_iff₀ hpos]
    have : ∑ t ∈ rowsOf f' (f' r), longProbs M h (e t) ≤ 1 := by
      rw [himg, ← hone]
      exact Finset.sum_le_sum_of_subset_of_nonneg hsub fun q _ _ => (longProbs_pos hM h q).le
    nlinarith
  · rintro ⟨q, hq, hqe⟩
    rw [lt_div_iff₀ hpos]
    have : ∑ t ∈ rowsOf f' (f' r), longProbs M h (e t) < 1 := by
      rw [himg, ← hone]
      refine Finset.sum_lt_sum_of_subset hsub (i := q) (by simpa [rowsOf] using hq) ?_
        (longProbs_pos hM h q) fun q _ _ => (longProbs_pos hM h q).le
      intro hm
      obtain ⟨t, -, rfl⟩ := Finset.mem_map.1 hm
      exact hqe ⟨t, rfl⟩
    nlinarith

/-- The transformed utility of a row depends only on the row's own utility and alternative, in all five models: on
the kept rows the transformations take the values they had in the full table. -/
theorem transforms_of_kept_rows (e : R' → R) (v : R → ℝ) (ids : R → ι) (rta : Matrix R (Fin (n + 1)) ℝ)
    (sref : Fin (n + 1)) (ref : Option (Fin (n + 1))) (ip : Option (Fin n → ℝ))
    (s : Option (Fin (n + 1) → ℝ)) (η : Option (Fin n → ℝ)) :
    (mnlTransform (S := Empty) (I := Empty) (fun r => v (e r)) (fun r => ids (e r)) (rta.submatrix e id) none
      none = fun r => mnlTransform (S := Empty) (I := Empty) v ids rta none none (e r)) ∧
    (clogTransform (S := Empty) ref (fun r => v (e r)) (fun r => ids (e r)) (rta.submatrix e id) none ip =
      fun r => clogTransform (S := Empty) ref v ids rta none ip (e r)) ∧
    (scobitTransform ref (fun r => v (e r)) (fun r => ids (e r)) (rta.submatrix e id) s ip =
      fun r => scobitTransform ref v ids rta s ip (e r)) ∧
    (unevenTransform ref (fun r => v (e r)) (fun r => ids (e r)) (rta.submatrix e id) s ip =
      fun r => unevenTransform ref v ids rta s ip (e r)) ∧
    asymTransform sref ref (fun r => v (e r)) (fun r => ids (e r)) (rta.submatrix e id) η ip =
      fun r => asymTransform sref ref v ids rta η ip (e r) := by
  refine ⟨rfl, rfl, ?_, ?_, ?_⟩
  · cases s <;> rfl
  · cases s <;> rfl
  · cases η <;> rfl

/-- **C99**, for the probabilities of the five models as computed from the coefficients, on a table (`X`, `rta`) and
on some of its rows. -/
theorem model_probs_of_kept_rows {M : Matrix R O ℝ} {f : R → O} (hM : Indicates M f) {M' : Matrix R' O' ℝ}
    {f' : R' → O'} (hM' : Indicates M' f') {e : R' → R}
    (hf : ∀ r s, f' r = f' s ↔ f (e r) = f (e s)) (β : K → ℝ) (X : Matrix R K ℝ) (ids : R → ι)
    (rta : Matrix R (Fin (n + 1)) ℝ) (sref : Fin (n + 1)) (ref : Option (Fin (n + 1)))
    (ip : Option (Fin n → ℝ)) (s : Option (Fin (n + 1) → ℝ)) (η : Option (Fin n → ℝ)) (r : R') :
    let X' := X.submatrix e id
    let ids' := fun r => ids (e r)
    let rta' := rta.submatrix e id
    let kept := fun (p : R → ℝ) => p (e r) / ∑ s ∈ rowsOf f' (f' r), p (e s)
    modelProbs (S := Empty) (I := Empty) β X' ids' M' rta' mnlTransform none none r =
        kept (modelProbs (S := Empty) (I := Empty) β X ids M rta mnlTransform none none) ∧
      modelProbs (S := Empty) β X' ids' M' rta' (clogTransform ref) ip none r =
        kept (modelProbs (S := Empty) β X ids M rta (clogTransform ref) ip none) ∧
      modelProbs β X' ids' M' rta' (scobitTransform ref) ip s r =
        kept (modelProbs β X ids M rta (scobitTransform ref) ip s) ∧
      modelProbs β X' ids' M' rta' (unevenTransform ref) ip s r =
        kept (modelProbs β X ids M rta (unevenTransform ref) ip s) ∧
      modelProbs β X' ids' M' rta' (asymTransform sref ref) ip η r =
        kept (modelProbs β X ids M rta (asymTransform sref ref) ip η) := by
  intro X' ids' rta' kept
  have hv : X' *ᵥ β = fun r => (X *ᵥ β) (e r) := rfl
  obtain ⟨h1, h2, h3, h4, h5⟩ := transforms_of_kept_rows e (X *ᵥ β) ids rta sref ref ip s η
  refine ⟨?_, ?_, ?_, ?_, ?_⟩
  · simp only [modelProbs, hv]; rw [h1]; exact probs_of_kept_rows hM hM' hf _ r
  · simp only [modelProbs, hv]; rw [h2]; exact probs_of_kept_rows hM hM' hf _ r
  · simp only [modelProbs, hv]; rw [h3]; exact probs_of_kept_rows hM hM' hf _ r
  · simp only [modelProbs, hv]; rw [h4]; exact probs_of_kept_rows hM hM' hf _ r
  · simp only [modelProbs, hv]; rw [h5]; exact probs_of_kept_rows hM hM' hf _ r

/-! ### Nested logit -/

variable {N : Type} [Fintype N] [DecidableEq N]

/-- **C99**, nested logit: the ratio of the probabilities of two alternatives of one nest depends on their utilities
and the coefficient of the nest alone. -/
theorem nested_ratio {M : Matrix R O ℝ} {f : R → O} (hM : Indicates M f) {Q : Matrix R N ℝ} {g : R → N}
    (hQ : Indicates Q g) {lam : N → ℝ} (hl : ∀ m, 0 < lam m) {β : K → ℝ} {X : Matrix R K ℝ}
    {C : Option (Matrix R O ℝ)} {rt : String} {res : NestedResult R O N} {lp : R → ℝ}
    (h : calcNestedProbs lam β X M Q C rt = .ok res) (hlp : nestedLongPart res = some lp)
    {r s : R} (hf : f r = f s) (hg : g r = g s) :
    lp r / lp s = Real.exp (((X *ᵥ β) r - (X *ᵥ β) s) / lam (g r)) := by
  have hr := nested_probabilities_formula hM hQ hl h hlp r
  have hs := nested_probabilities_formula hM hQ hl h hlp s
  have hv := (nested_probabilities_valid hM hQ hl h hlp).1 s
  rw [div_eq_iff hv.1.ne', hr, hs, nestedProb, nestedProb, condProb, condProb, hf, hg, sub_div, Real.exp_sub]
  have := (Real.exp_pos ((X *ᵥ β) s / lam (g s))).ne'
  field_simp

private theorem nestSum_kept {f : R → O} {g : R → N} {f' : R' → O'} {e : R' → R} (he : Injective e)
    (hf : ∀ r s, f' r = f' s ↔ f (e r) = f (e s)) (V : R → ℝ) (lam : N → ℝ) (r : R') (m : N) :
    nestSum f' (fun r => g (e r)) (fun r => V (e r)) lam (f' r) m ≤ nestSum f g V lam (f (e r)) m := by
  unfold nestSum
  have : ∑ s ∈ nestRows f' (fun r => g (e r)) (f' r) m, Real.exp (V (e s) / lam m) =
      ∑ q ∈ (nestRows f' (fun r => g (e r)) (f' r) m).map ⟨e, he⟩, Real.exp (V q / lam m) := by
    rw [Finset.sum_map]; rfl
  rw [this]
  refine Finset.sum_le_sum_of_subset_of_nonneg ?_ fun _ _ _ => (Real.exp_pos _).le
  intro q hq
  obtain ⟨t, ht, rfl⟩ := Finset.mem_map.1 hq
  simp only [nestRows, Finset.mem_filter, Finset.mem_univ, true_and, Function.Embedding.coeFn_mk] at ht ⊢
  exact ⟨(hf t r).1 ht.1, ht.2⟩

/-- **C99**, nested logit with nest coefficients up to one (those of the model always are): removing alternatives
never lowers the probability of one that is kept, from whichever nests they are removed. -/
theorem nested_kept_rows_gain {M : Matrix R O ℝ} {f : R → O} (hM : Indicates M f) {Q : Matrix R N ℝ}
    {g : R → N} (hQ : Indicates Q g) {M' : Matrix R' O' ℝ} {f' : R' → O'} (hM' : Indicates M' f')
    {e : R' → R} (he : Injective e) (hf : ∀ r s, f' r = f' s ↔ f (e r) = f (e s)) {lam : N → ℝ}
    (hl : ∀ m, 0 < lam m) (hl1 : ∀ m, lam m ≤ 1) {β : K → ℝ} {X : Matrix R K ℝ}
    {C : Option (Matrix R O ℝ)} {C' : Option (Matrix R' O' ℝ)} {rt rt' : String}
    {res : NestedResult R O N} {lp : R → ℝ} {res' : NestedResult R' O' N} {lp' : R' → ℝ}
    (h : calcNestedProbs lam β X M Q C rt = .ok res) (hlp : nestedLongPart res = some lp)
    (h' : calcNestedProbs lam β (X.submatrix e id) M' (Q.submatrix e id) C' rt' = .ok res')
    (hlp' : nestedLongPart res' = some lp') (r : R') : lp (e r) ≤ lp' r := by
  have hQ' : Indicates (Q.submatrix e id) (fun r => g (e r)) := fun r m => hQ (e r) m
  rw [nested_probabilities_formula hM hQ hl h hlp, nested_probabilities_formula hM' hQ' hl h' hlp']
  have hv : X.submatrix e id *ᵥ β = fun r => (X *ᵥ β) (e r) := rfl
  rw [hv]
  set V := X *ᵥ β
  set S : N → ℝ := nestSum f g V lam (f (e r))
  set S' : N → ℝ := nestSum f' (fun r => g (e r)) (fun r => V (e r)) lam (f' r)
  have hS : ∀ m, S' m ≤ S m := nestSum_kept he hf V lam r
  have hS'0 : ∀ m, 0 ≤ S' m := fun m => Finset.sum_nonneg fun _ _ => (Real.exp_pos _).le
  set m := g (e r)
  have hSm' : 0 < S' m := by
    refine Finset.sum_pos (fun _ _ => Real.exp_pos _) ⟨r, by simp [nestRows, m]⟩
  have hSm : 0 < S m := hSm'.trans_le (hS m)
  have hD' : 0 < ∑ m' ∈ availNests f' (fun r => g (e r)) (f' r), S' m' ^ lam m' := by
    refine Finset.sum_pos' (fun m _ => Real.rpow_nonneg (hS'0 m) _) ⟨m, ?_, Real.rpow_pos_of_pos hSm' _⟩
    simp only [availNests, Finset.mem_filter, Finset.mem_univ, true_and]
    exact ⟨r, by simp [nestRows, m]⟩
  have hDD : ∑ m' ∈ availNests f' (fun r => g (e r)) (f' r), S' m' ^ lam m' ≤
      ∑ m' ∈ availNests f g (f (e r)), S m' ^ lam m' := by
    refine (Finset.sum_le_sum fun m _ => Real.rpow_le_rpow (hS'0 m) (hS m) (hl m).le).trans ?_
    refine Finset.sum_le_sum_of_subset_of_nonneg ?_ fun m _ _ =>
      Real.rpow_nonneg ((hS'0 m).trans (hS m)) _
    intro k hk
    simp only [availNests, Finset.mem_filter, Finset.mem_univ, true_and] at hk ⊢
    obtain ⟨t, ht⟩ := hk
    simp only [nestRows, Finset.mem_filter, Finset.mem_univ, true_and] at ht
    exact ⟨e t, by simp only [nestRows, Finset.mem_filter, Finset.mem_univ, true_and]
                   exact ⟨(hf t r).1 ht.1, ht.2⟩⟩
  have key : S m ^ (lam m - 1) ≤ S' m ^ (lam m - 1) :=
    Real.rpow_le_rpow_of_nonpos hSm' (hS m) (by linarith [hl1 m])
  have e1 : ∀ x : ℝ, 0 < x → ∀ D E : ℝ, x ^ lam m / D * (E / x) = E * x ^ (lam m - 1) / D := by
    intro x hx D E
    rw [Real.rpow_sub hx, Real.rpow_one]
    field_simp
  change S m ^ lam m / _ * (Real.exp (V (e r) / lam m) / S m) ≤
    S' m ^ lam m / _ * (Real.exp (V (e r) / lam m) / S' m)
  rw [e1 _ hSm, e1 _ hSm']
  have hE := Real.exp_pos (V (e r) / lam m)
  exact div_le_div₀ (by positivity) (mul_le_mul_of_nonneg_left key hE.le) hD' hDD

/-- A nested logit with a nest of alternatives 0 and 1 with coefficient 1/2 and a nest of alternative 2, all
utilities zero.  Without alternative 1 the two remaining alternatives have the same probability, with it
alternative 0 is less probable than alternative 2: between nests, ratios do depend on other alternatives. -/
theorem nested_ratio_across_nests :
    ∃ lp : Fin 3 → ℝ, ∃ lp' : Fin 2 → ℝ,
      calcNestedProbs (O := Unit) (K := Unit) ![1 / 2, 1] (fun _ => 0) (Matrix.of fun _ _ => 0)
        (Matrix.of fun _ _ => 1) (Matrix.of fun r m => if (![0, 0, 1] : Fin 3 → Fin 2) r = m then 1 else 0) none
        "long_probs" = .ok (.long lp) ∧
      calcNestedProbs (O := Unit) (K := Unit) ![1 / 2, 1] (fun _ => 0) (Matrix.of fun _ _ => 0)
        (Matrix.of fun _ _ => 1) (Matrix.of fun r m => if (![0, 1] : Fin 2 → Fin 2) r = m then 1 else 0) none
        "long_probs" = .ok (.long lp') ∧
      lp' 0 = lp' 1 ∧ lp 0 < lp 2 := by
  refine ⟨_, _, rfl, rfl, ?_, ?_⟩
  · have h := fun r => nested_probabilities_formula (R := Fin 2) (O := Unit) (N := Fin 2) (K := Unit)
      (M := Matrix.of fun _ _ => 1) (f := fun _ => ()) (fun _ _ => rfl)
      (Q := Matrix.of fun r m => if (![0, 1] : Fin 2 → Fin 2) r = m then 1 else 0) (g := ![0, 1])
      (fun _ _ => rfl) (lam := ![1 / 2, 1]) (by intro m; fin_cases m <;> simp) (β := fun _ => 0)
      (X := Matrix.of fun _ _ => 0) (C := none) (rt := "long_probs") rfl rfl r
    rw [h 0, h 1]
    have hS0 : nestRows (fun _ : Fin 2 => ()) ![0, 1] () (0 : Fin 2) = {0} := by decide
    have hS1 : nestRows (fun _ : Fin 2 => ()) ![0, 1] () (1 : Fin 2) = {1} := by decide
    simp [nestedProb, nestProb, condProb, nestSum, hS0, hS1, mulVec, dotProduct]
  · have h := fun r => nested_probabilities_formula (R := Fin 3) (O := Unit) (N := Fin 2) (K := Unit)
      (M := Matrix.of fun _ _ => 1) (f := fun _ => ()) (fun _ _ => rfl)
      (Q := Matrix.of fun r m => if (![0, 0, 1] : Fin 3 → Fin 2) r = m then 1 else 0) (g := ![0, 0, 1])
      (fun _ _ => rfl) (lam := ![1 / 2, 1]) (by intro m; fin_cases m <;> simp) (β := fun _ => 0)
      (X := Matrix.of fun _ _ => 0) (C := none) (rt := "long_probs") rfl rfl r
    rw [h 0, h 2]
    have hS0 : nestRows (fun _ : Fin 3 => ()) ![0, 0, 1] () (0 : Fin 2) = {0, 1} := by decide
    have hS1 : nestRows (fun _ : Fin 3 => ()) ![0, 0, 1] () (1 : Fin 2) = {2} := by decide
    have hA : availNests (fun _ : Fin 3 => ()) (![0, 0, 1] : Fin 3 → Fin 2) () = {0, 1} := by decide
    have h2 : (2 : ℝ) ^ (2⁻¹ : ℝ) < 2 := by
      conv_rhs => rw [← Real.rpow_one 2]
      exact Real.rpow_lt_rpow_of_exponent_lt (by norm_num) (by norm_num)
    have h3 : (0 : ℝ) < 2 ^ (2⁻¹ : ℝ) := by positivity
    simp [nestedProb, nestProb, condProb, nestSum, hS0, hS1, hA, mulVec, dotProduct]
    generalize (2 : ℝ) ^ (2⁻¹ : ℝ) = x at h2 h3 ⊢
    rw [div_mul_eq_mul_div, ← one_div, ← one_div, div_lt_div_iff_of_pos_right (by positivity)]
    linarith

end Remove

/-! ## Non-vacuity -/

/-- Two observations with two alternatives each. -/
def exShareObs : Fin 4 → Fin 2 := ![0, 0, 1, 1]
/-- Observation 0 chose the first alternative, observation 1 the second. -/
def exShareChoice : Fin 4 → ℝ := ![1, 0, 0, 1]
/-- Alternatives of the rows. -/
def exShareAlt : Fin 4 → Fin 2 := ![0, 1, 0, 1]

theorem exShare_oneChoice : OneChoice exShareObs exShareChoice ![0, 3] where
  mem := by decide
  one := by intro o; fin_cases o <;> rfl
  zero := by intro r; fin_cases r <;> simp [exShareObs, exShareChoice]

/-- A multinomial logit with a constant for the first alternative: at zero the log-likelihood has its maximum, and
the shares are one each. -/
example :
    let M : Matrix (Fin 4) (Fin 2) ℝ := fun r o => if exShareObs r = o then 1 else 0
    let X : Matrix (Fin 4) (Fin 1) ℝ := !![1; 0; 1; 0]
    let rta : Matrix (Fin 4) (Fin 2) ℝ := fun r j => if exShareAlt r = j then 1 else 0
    let p := modelProbs (S := Empty) (I := Empty) (fun _ : Fin 1 => 0) X exShareAlt M rta mnlTransform none none
    IsLocalMax (fun β => calcLogLikelihood (S := Empty) (I := Empty) β X exShareAlt M rta exShareChoice
      mnlTransform none none none none) (fun _ => 0) ∧
    observedShare (fun _ => 1) exShareAlt ![0, 3] 0 = 1 ∧ predictedShare (fun _ => 1) exShareAlt p 0 = 1 := by
  intro M X rta p
  have hM : Indicates M exShareObs := fun _ _ => rfl
  have hv : X *ᵥ (fun _ : Fin 1 => (0 : ℝ)) = fun _ => 0 := by
    funext r; simp [mulVec, dotProduct]
  have hp : ∀ r, p r = 1 / 2 := by
    intro r
    change longProbs M (X *ᵥ fun _ => 0) r = _
    rw [hv, longProbs_eq_logitProb hM r (by simp)]
    have : (rowsOf exShareObs (exShareObs r)).card = 2 := by revert r; decide
    simp [logitProb, this]
  have hobs : observedShare (fun _ => (1 : ℝ)) exShareAlt ![0, 3] 0 = 1 := by
    have : (univ.filter fun o : Fin 2 => exShareAlt ((![0, 3] : Fin 2 → Fin 4) o) = 0) = {0} := by decide
    simp [observedShare, this]
  have hpred : predictedShare (fun _ => (1 : ℝ)) exShareAlt p 0 = 1 := by
    have : (univ.filter fun r => exShareAlt r = 0) = {0, 2} := by decide
    simp [predictedShare, this, hp]
  have hg := mnl_shares (M := M) exShare_oneChoice none X exShareAlt rta (fun _ => 0) none exShareAlt 0 0
    (by intro r; fin_cases r <;> rfl)
  refine ⟨?_, hobs, hpred⟩
  have hgrad : gradientNone (S := Empty) (I := Empty) mnlDerivs X exShareChoice p none none (fun _ => 0) = 0 := by
    funext k
    rw [Subsingleton.elim k 0]
    have := hobs.trans hpred.symm
    simp only [Option.getD_none] at hg
    change observedShare (fun _ => (1 : ℝ)) exShareAlt ![0, 3] 0 - predictedShare (fun _ => (1 : ℝ)) exShareAlt p 0 = _
      at hg
    rw [hobs, hpred] at hg
    simp only [Pi.zero_apply]
    linarith
  have hev : ∀ᶠ γ : Fin 1 → ℝ in nhds (fun _ => 0), |γ 0| < 700 := by
    have hc : Continuous fun γ : Fin 1 → ℝ => |γ 0| := (continuous_apply 0).abs
    exact hc.continuousAt.eventually_lt continuousAt_const (by simp)
  refine hev.mono fun γ hγ => ?_
  refine mnl_stationary_is_maximum hM exShare_oneChoice (by intro w h; cases h) (by intro w h; cases h) X exShareAlt
    rta (by intro ρ h; cases h) _ (by rw [hv]; simp) hgrad γ ?_
  intro r
  have : (X *ᵥ γ) r = X r 0 * γ 0 := by simp [mulVec, dotProduct]
  rw [this]
  fin_cases r <;> simp [X] <;> exact hγ.le

/-- Removing row 1 of the four rows: the hypotheses of the theorems on kept rows hold, and an alternative of
observation 0 was removed. -/
example : Injective (![0, 2, 3] : Fin 3 → Fin 4) ∧
    (∀ r s : Fin 3, (![0, 1, 1] : Fin 3 → Fin 2) r = (![0, 1, 1] : Fin 3 → Fin 2) s ↔
      exShareObs ((![0, 2, 3] : Fin 3 → Fin 4) r) = exShareObs ((![0, 2, 3] : Fin 3 → Fin 4) s)) ∧
    ∃ q, exShareObs q = exShareObs ((![0, 2, 3] : Fin 3 → Fin 4) 0) ∧
      ∀ r, (![0, 2, 3] : Fin 3 → Fin 4) r ≠ q := by
  decide

end Pylogit
