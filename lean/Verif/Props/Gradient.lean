import Verif.Lemmas.Gradient
import Verif.Props.Transforms
import Verif.Props.Probabilities

/-!
# C22, C23: log-likelihood and gradient

`OneChoice f choice c`: observation `o` has exactly one chosen row, `c o`.
-/

set_option linter.unusedSectionVars false

open Finset Matrix Function

namespace Pylogit

open Spec

variable {R O A K S I ι : Type} [Fintype R] [DecidableEq R] [Fintype O] [DecidableEq O]
  [Fintype K] [DecidableEq K] [Fintype S] [DecidableEq S] [Fintype I] [DecidableEq I]

/-! ## C22: the value of the log-likelihood -/

/-- The ridge penalty: the penalty times the sum of squares of all the parameters present. -/
noncomputable def Spec.penalty (ridge : Option ℝ) (shape : Option (S → ℝ)) (icpt : Option (I → ℝ))
    (β : K → ℝ) : ℝ :=
  ridge.getD 0 * (∑ s, (shape.getD 0) s ^ 2 + ∑ i, (icpt.getD 0) i ^ 2 + ∑ k, β k ^ 2)

/-- **C22** (formula). -/
theorem loglik_formula {M : Matrix R O ℝ} {f : R → O} {choice : R → ℝ}
    {c : O → R} (hc : OneChoice f choice c) (β : K → ℝ) (X : Matrix R K ℝ) (ids : R → ι)
    (rta : Matrix R A ℝ) (T : Transform R A S I ι) (icpt : Option (I → ℝ))
    (shape : Option (S → ℝ)) (ridge : Option ℝ) (weights : Option (R → ℝ)) :
    calcLogLikelihood β X ids M rta choice T icpt shape ridge weights =
      ∑ o, (weights.getD fun _ => 1) (c o) *
          Real.log (modelProbs β X ids M rta T icpt shape (c o))
        - penalty ridge shape icpt β := by
  have hs : ∀ g : R → ℝ, ∑ r, choice r * g r = ∑ o, g (c o) := by
    intro g
    rw [← Finset.sum_fiberwise_of_maps_to (t := Finset.univ) (g := f) (fun r _ => Finset.mem_univ _)]
    refine Finset.sum_congr rfl fun o _ => ?_
    rw [Finset.sum_eq_single (c o)]
    · rw [hc.one, one_mul]
    · intro r hr hne
      rw [hc.zero r (by rw [(Finset.mem_filter.1 hr).2]; exact hne), zero_mul]
    · intro hn; exact absurd (Finset.mem_filter.2 ⟨Finset.mem_univ (c o), hc.mem o⟩) hn
  simp only [calcLogLikelihood, defaultWeights]
  rw [hs (fun r => (weights.getD fun _ => 1) r * Real.log _)]
  cases ridge <;> cases shape <;> cases icpt <;> simp [penalty, sumSqOpt]

/-- **C22** (sign). -/
theorem loglik_nonpos {M : Matrix R O ℝ} {f : R → O} (hM : Indicates M f) {choice : R → ℝ}
    {c : O → R} (hc : OneChoice f choice c) (β : K → ℝ) (X : Matrix R K ℝ) (ids : R → ι)
    (rta : Matrix R A ℝ) (T : Transform R A S I ι) (icpt : Option (I → ℝ))
    (shape : Option (S → ℝ)) (ridge : Option ℝ) (weights : Option (R → ℝ))
    (hw : ∀ w, weights = some w → ∀ r, 0 ≤ w r) (hρ : ∀ ρ, ridge = some ρ → 0 ≤ ρ) :
    calcLogLikelihood β X ids M rta choice T icpt shape ridge weights ≤ 0 := by
  rw [loglik_formula hc]
  have h1 : ∀ o, (weights.getD fun _ => 1) (c o) *
      Real.log (modelProbs β X ids M rta T icpt shape (c o)) ≤ 0 := by
    intro o
    refine mul_nonpos_of_nonneg_of_nonpos ?_ ?_
    · cases hw' : weights with
      | none => simp
      | some w => simpa using hw w hw' _
    · exact Real.log_nonpos (longProbs_pos hM _ _).le (longProbs_le_one hM _ _)
  have h2 : 0 ≤ penalty ridge shape icpt β := by
    refine mul_nonneg ?_ (by positivity)
    cases hr : ridge with
    | none => simp
    | some ρ => simpa using hρ ρ hr
  have := Finset.sum_nonpos fun o (_ : o ∈ Finset.univ) => h1 o
  linarith

/-- **C22** (null log-likelihood of the MNL model): at zero coefficients each observation
contributes minus the logarithm of the size of its choice set. -/
theorem loglik_mnl_zero {M : Matrix R O ℝ} {f : R → O} (hM : Indicates M f) {choice : R → ℝ}
    {c : O → R} (hc : OneChoice f choice c) (X : Matrix R K ℝ) (ids : R → ι)
    (rta : Matrix R A ℝ) (ridge : Option ℝ) :
    calcLogLikelihood (S := S) (I := I) (fun _ => 0) X ids M rta choice mnlTransform none none
        ridge none
      = - ∑ o, Real.log ((univ.filter fun r => f r = o).card : ℝ) := by
  rw [loglik_formula hc]
  have h1 : ∀ o, modelProbs (S := S) (I := I) (fun _ => 0) X ids M rta mnlTransform none none (c o) =
      ((univ.filter fun r => f r = o).card : ℝ)⁻¹ := by
    intro o
    rw [modelProbs, longProbs_eq_logitProb hM (c o) (by intro s _; simp [mnlTransform, mulVec, dotProduct])]
    simp [logitProb, mnlTransform, mulVec, dotProduct, rowsOf, hc.mem o]
  simp only [h1, Real.log_inv]
  simp [penalty]

/-! ## C23: the gradient -/

/-- Weights are a per-observation quantity: rows of the same observation share the weight. -/
def Spec.ObsWeights (f : R → O) (weights : Option (R → ℝ)) : Prop :=
  ∀ w, weights = some w → ∀ r s, f r = f s → w r = w s

theorem obsWeights_default {f : R → O} {weights : Option (R → ℝ)} (hw : ObsWeights f weights) :
    ∀ r s, f r = f s → defaultWeights weights r = defaultWeights weights s := by
  intro r s h
  cases hw' : weights with
  | none => rfl
  | some w => exact hw w hw' r s h

theorem ridgeGrad_eq {P : Type} (ridge : Option ℝ) (θ g : P → ℝ) (i : P) :
    ridgeGrad ridge θ g i = g i - 2 * ridge.getD 0 * θ i := by
  cases ridge <;> simp [ridgeGrad]

/-- **C23**, shape and intercept parameters present: each entry of the gradient is the partial
derivative of the log-likelihood in that parameter (shapes, intercepts, coefficients). -/
theorem gradient_both {M : Matrix R O ℝ} {f : R → O} (hM : Indicates M f) {choice : R → ℝ}
    {c : O → R} (hc : OneChoice f choice c) {weights : Option (R → ℝ)} (hw : ObsWeights f weights)
    {X : Matrix R K ℝ} {ids : R → ι} {rta : Matrix R A ℝ} {T : Transform R A S I ι}
    {d : Derivs R S I} {s : S → ℝ} {a : I → ℝ} {β : K → ℝ} (ridge : Option ℝ)
    (hT : Rowwise T ids rta (some s) (some a))
    (hd : DerivsCorrect T d (X *ᵥ β) ids rta (some s) (some a))
    (hb : ∀ r, |T (X *ᵥ β) ids rta (some s) (some a) r| < 700) :
    HasPartials
      (fun θ : S ⊕ (I ⊕ K) → ℝ => calcLogLikelihood (fun k => θ (.inr (.inr k))) X ids M rta choice T
        (some fun i => θ (.inr (.inl i))) (some fun j => θ (.inl j)) ridge weights)
      (gradientBoth d X choice (modelProbs β X ids M rta T (some a) (some s)) weights ridge s a β)
      (Sum.elim s (Sum.elim a β)) := by
  have hJ : HasJacobian (fun θ : S ⊕ (I ⊕ K) → ℝ => T (X *ᵥ fun k => θ (.inr (.inr k))) ids rta
      (some fun j => θ (.inl j)) (some fun i => θ (.inr (.inl i))))
      (fun r => Sum.elim (d.dhdc r) (Sum.elim (d.dhdalpha r) ((d.dhdv * X) r)))
      (Sum.elim s (Sum.elim a β)) := by
    rintro r (j | i | k)
    · simpa using hd.dc s rfl r j
    · simpa using hd.da a rfl r i
    · have e : ∀ t, (fun k' => update (Sum.elim s (Sum.elim a β)) (.inr (.inr k)) t (.inr (.inr k'))) =
          update β k t := by
        intro t; funext k'; simp [update]
      simpa [e] using beta_partials hT hd r k
  have key := core_partials hM hc (obsWeights_default hw) hJ (by simpa using hb) (ridge.getD 0)
  intro i
  have k := key i
  rw [gradientBoth, ridgeGrad_eq]
  convert k using 1
  · funext θ
    cases ridge <;>
      simp [calcLogLikelihood, modelProbs, Fintype.sum_sum_type, sumSqOpt, add_assoc]
  · rcases i with j | i | k <;> simp [vecMul, dotProduct, dLLdh, modelProbs]


/-- **C23**, shape parameters but no intercept parameters. -/
theorem gradient_shape {M : Matrix R O ℝ} {f : R → O} (hM : Indicates M f) {choice : R → ℝ}
    {c : O → R} (hc : OneChoice f choice c) {weights : Option (R → ℝ)} (hw : ObsWeights f weights)
    {X : Matrix R K ℝ} {ids : R → ι} {rta : Matrix R A ℝ} {T : Transform R A S I ι}
    {d : Derivs R S I} {s : S → ℝ} {β : K → ℝ} (ridge : Option ℝ)
    (hT : Rowwise T ids rta (some s) none)
    (hd : DerivsCorrect T d (X *ᵥ β) ids rta (some s) none)
    (hb : ∀ r, |T (X *ᵥ β) ids rta (some s) none r| < 700) :
    HasPartials
      (fun θ : S ⊕ K → ℝ => calcLogLikelihood (fun k => θ (.inr k)) X ids M rta choice T
        none (some fun j => θ (.inl j)) ridge weights)
      (gradientShape d X choice (modelProbs β X ids M rta T none (some s)) weights ridge s β)
      (Sum.elim s β) := by
  have hJ : HasJacobian (fun θ : S ⊕ K → ℝ => T (X *ᵥ fun k => θ (.inr k)) ids rta
      (some fun j => θ (.inl j)) none)
      (fun r => Sum.elim (d.dhdc r) ((d.dhdv * X) r)) (Sum.elim s β) := by
    rintro r (j | k)
    · simpa using hd.dc s rfl r j
    · have e : ∀ t, (fun k' => update (Sum.elim s β) (.inr k) t (.inr k')) = update β k t := by
        intro t; funext k'; simp [update]
      simpa [e] using beta_partials hT hd r k
  have key := core_partials hM hc (obsWeights_default hw) hJ (by simpa using hb) (ridge.getD 0)
  intro i
  have k := key i
  rw [gradientShape, ridgeGrad_eq]
  convert k using 1
  · funext θ
    cases ridge <;>
      simp [calcLogLikelihood, modelProbs, Fintype.sum_sum_type, sumSqOpt]
  · rcases i with j | k <;> simp [vecMul, dotProduct, dLLdh, modelProbs]

/-- **C23**, intercept parameters but no shape parameters. -/
theorem gradient_icpt {M : Matrix R O ℝ} {f : R → O} (hM : Indicates M f) {choice : R → ℝ}
    {c : O → R} (hc : OneChoice f choice c) {weights : Option (R → ℝ)} (hw : ObsWeights f weights)
    {X : Matrix R K ℝ} {ids : R → ι} {rta : Matrix R A ℝ} {T : Transform R A S I ι}
    {d : Derivs R S I} {a : I → ℝ} {β : K → ℝ} (ridge : Option ℝ)
    (hT : Rowwise T ids rta none (some a))
    (hd : DerivsCorrect T d (X *ᵥ β) ids rta none (some a))
    (hb : ∀ r, |T (X *ᵥ β) ids rta none (some a) r| < 700) :
    HasPartials
      (fun θ : I ⊕ K → ℝ => calcLogLikelihood (fun k => θ (.inr k)) X ids M rta choice T
        (some fun i => θ (.inl i)) none ridge weights)
      (gradientIcpt d X choice (modelProbs β X ids M rta T (some a) none) weights ridge a β)
      (Sum.elim a β) := by
  have hJ : HasJacobian (fun θ : I ⊕ K → ℝ => T (X *ᵥ fun k => θ (.inr k)) ids rta
      none (some fun i => θ (.inl i)))
      (fun r => Sum.elim (d.dhdalpha r) ((d.dhdv * X) r)) (Sum.elim a β) := by
    rintro r (i | k)
    · simpa using hd.da a rfl r i
    · have e : ∀ t, (fun k' => update (Sum.elim a β) (.inr k) t (.inr k')) = update β k t := by
        intro t; funext k'; simp [update]
      simpa [e] using beta_partials hT hd r k
  have key := core_partials hM hc (obsWeights_default hw) hJ (by simpa using hb) (ridge.getD 0)
  intro i
  have k := key i
  rw [gradientIcpt, ridgeGrad_eq]
  convert k using 1
  · funext θ
    cases ridge <;>
      simp [calcLogLikelihood, modelProbs, Fintype.sum_sum_type, sumSqOpt]
  · rcases i with j | k <;> simp [vecMul, dotProduct, dLLdh, modelProbs]

/-- **C23**, coefficients only. -/
theorem gradient_none {M : Matrix R O ℝ} {f : R → O} (hM : Indicates M f) {choice : R → ℝ}
    {c : O → R} (hc : OneChoice f choice c) {weights : Option (R → ℝ)} (hw : ObsWeights f weights)
    {X : Matrix R K ℝ} {ids : R → ι} {rta : Matrix R A ℝ} {T : Transform R A S I ι}
    {d : Derivs R S I} {β : K → ℝ} (ridge : Option ℝ)
    (hT : Rowwise T ids rta none none)
    (hd : DerivsCorrect T d (X *ᵥ β) ids rta none none)
    (hb : ∀ r, |T (X *ᵥ β) ids rta none none r| < 700) :
    HasPartials
      (fun β => calcLogLikelihood β X ids M rta choice T none none ridge weights)
      (gradientNone d X choice (modelProbs β X ids M rta T none none) weights ridge β) β := by
  have key := core_partials hM hc (obsWeights_default hw) (beta_partials hT hd) hb (ridge.getD 0)
  intro i
  have k := key i
  rw [gradientNone, ridgeGrad_eq]
  convert k using 1
  · funext θ
    cases ridge <;>
      simp [calcLogLikelihood, modelProbs, sumSqOpt]
  · rfl

/-! ### The actual models: no hypothesis on the transformation remains -/

variable {n : ℕ}

/-- **C23**, MNL. -/
theorem mnl_gradient {M : Matrix R O ℝ} {f : R → O} (hM : Indicates M f) {choice : R → ℝ}
    {c : O → R} (hc : OneChoice f choice c) {weights : Option (R → ℝ)} (hw : ObsWeights f weights)
    (X : Matrix R K ℝ) (ids : R → ι) (rta : Matrix R A ℝ) (β : K → ℝ) (ridge : Option ℝ)
    (hb : ∀ r, |(X *ᵥ β) r| < 700) :
    HasPartials
      (fun β => calcLogLikelihood (S := Empty) (I := Empty) β X ids M rta choice mnlTransform none none
        ridge weights)
      (gradientNone (S := Empty) (I := Empty) mnlDerivs X choice
        (modelProbs (S := Empty) (I := Empty) β X ids M rta mnlTransform none none) weights ridge β) β :=
  gradient_none hM hc hw ridge (fun _ _ _ h => h) (mnl_derivs_correct _ _ _) hb

/-- **C23**, Scobit with outside intercepts. -/
theorem scobit_gradient {M : Matrix R O ℝ} {f : R → O} (hM : Indicates M f) {choice : R → ℝ}
    {c : O → R} (hc : OneChoice f choice c) {weights : Option (R → ℝ)} (hw : ObsWeights f weights)
    (X : Matrix R K ℝ) (ids : R → ι) {rta : Matrix R (Fin (n + 1)) ℝ} {alt : R → Fin (n + 1)}
    (hA : Indicates rta alt) (ref : Fin (n + 1)) (s : Fin (n + 1) → ℝ) (a : Fin n → ℝ) (β : K → ℝ)
    (ridge : Option ℝ)
    (hb : ∀ r, |scobitTransform (some ref) (X *ᵥ β) ids rta (some s) (some a) r| < 700) :
    HasPartials
      (fun θ : Fin (n + 1) ⊕ (Fin n ⊕ K) → ℝ => calcLogLikelihood (fun k => θ (.inr (.inr k))) X ids M
        rta choice (scobitTransform (some ref)) (some fun i => θ (.inr (.inl i)))
        (some fun j => θ (.inl j)) ridge weights)
      (gradientBoth (scobitDerivs ref rta s (X *ᵥ β)) X choice
        (modelProbs β X ids M rta (scobitTransform (some ref)) (some a) (some s)) weights ridge s a β)
      (Sum.elim s (Sum.elim a β)) :=
  gradient_both hM hc hw ridge (fun r v v' h => by simp [scobitTransform, h])
    (scobit_derivs_correct ref hA _ _ _ _) hb

/-- **C23**, Scobit without outside intercepts. -/
theorem scobit_gradient_no_intercepts {M : Matrix R O ℝ} {f : R → O} (hM : Indicates M f)
    {choice : R → ℝ} {c : O → R} (hc : OneChoice f choice c) {weights : Option (R → ℝ)}
    (hw : ObsWeights f weights) (X : Matrix R K ℝ) (ids : R → ι) {rta : Matrix R (Fin (n + 1)) ℝ}
    {alt : R → Fin (n + 1)} (hA : Indicates rta alt) (ref : Fin (n + 1)) (s : Fin (n + 1) → ℝ)
    (β : K → ℝ) (ridge : Option ℝ)
    (hb : ∀ r, |scobitTransform (some ref) (X *ᵥ β) ids rta (some s) none r| < 700) :
    HasPartials
      (fun θ : Fin (n + 1) ⊕ K → ℝ => calcLogLikelihood (fun k => θ (.inr k)) X ids M
        rta choice (scobitTransform (some ref)) none (some fun j => θ (.inl j)) ridge weights)
      (gradientShape (scobitDerivs ref rta s (X *ᵥ β)) X choice
        (modelProbs β X ids M rta (scobitTransform (some ref)) none (some s)) weights ridge s β)
      (Sum.elim s β) :=
  gradient_shape hM hc hw ridge (fun r v v' h => by simp [scobitTransform, h])
    (scobit_derivs_correct ref hA _ _ _ _) hb

/-- **C23**, Uneven with outside intercepts. -/
theorem uneven_gradient {M : Matrix R O ℝ} {f : R → O} (hM : Indicates M f) {choice : R → ℝ}
    {c : O → R} (hc : OneChoice f choice c) {weights : Option (R → ℝ)} (hw : ObsWeights f weights)
    (X : Matrix R K ℝ) (ids : R → ι) {rta : Matrix R (Fin (n + 1)) ℝ} {alt : R → Fin (n + 1)}
    (hA : Indicates rta alt) (ref : Fin (n + 1)) (s : Fin (n + 1) → ℝ) (a : Fin n → ℝ) (β : K → ℝ)
    (ridge : Option ℝ)
    (hb : ∀ r, |unevenTransform (some ref) (X *ᵥ β) ids rta (some s) (some a) r| < 700) :
    HasPartials
      (fun θ : Fin (n + 1) ⊕ (Fin n ⊕ K) → ℝ => calcLogLikelihood (fun k => θ (.inr (.inr k))) X ids M
        rta choice (unevenTransform (some ref)) (some fun i => θ (.inr (.inl i)))
        (some fun j => θ (.inl j)) ridge weights)
      (gradientBoth (unevenDerivs ref rta s (X *ᵥ β)) X choice
        (modelProbs β X ids M rta (unevenTransform (some ref)) (some a) (some s)) weights ridge s a β)
      (Sum.elim s (Sum.elim a β)) :=
  gradient_both hM hc hw ridge (fun r v v' h => by simp [unevenTransform, h])
    (uneven_derivs_correct ref hA _ _ _ _) hb

/-- **C23**, Uneven without outside intercepts. -/
theorem uneven_gradient_no_intercepts {M : Matrix R O ℝ} {f : R → O} (hM : Indicates M f)
    {choice : R → ℝ} {c : O → R} (hc : OneChoice f choice c) {weights : Option (R → ℝ)}
    (hw : ObsWeights f weights) (X : Matrix R K ℝ) (ids : R → ι) {rta : Matrix R (Fin (n + 1)) ℝ}
    {alt : R → Fin (n + 1)} (hA : Indicates rta alt) (ref : Fin (n + 1)) (s : Fin (n + 1) → ℝ)
    (β : K → ℝ) (ridge : Option ℝ)
    (hb : ∀ r, |unevenTransform (some ref) (X *ᵥ β) ids rta (some s) none r| < 700) :
    HasPartials
      (fun θ : Fin (n + 1) ⊕ K → ℝ => calcLogLikelihood (fun k => θ (.inr k)) X ids M
        rta choice (unevenTransform (some ref)) none (some fun j => θ (.inl j)) ridge weights)
      (gradientShape (unevenDerivs ref rta s (X *ᵥ β)) X choice
        (modelProbs β X ids M rta (unevenTransform (some ref)) none (some s)) weights ridge s β)
      (Sum.elim s β) :=
  gradient_shape hM hc hw ridge (fun r v v' h => by simp [unevenTransform, h])
    (uneven_derivs_correct ref hA _ _ _ _) hb

/-- **C23**, Clog-log with outside intercepts (partial: systematic utilities below 3.7). -/
theorem clog_gradient_partial {M : Matrix R O ℝ} {f : R → O} (hM : Indicates M f) {choice : R → ℝ}
    {c : O → R} (hc : OneChoice f choice c) {weights : Option (R → ℝ)} (hw : ObsWeights f weights)
    (X : Matrix R K ℝ) (ids : R → ι) {rta : Matrix R (Fin (n + 1)) ℝ} {alt : R → Fin (n + 1)}
    (hA : Indicates rta alt) (ref : Fin (n + 1)) (a : Fin n → ℝ) (β : K → ℝ) (ridge : Option ℝ)
    (hv : ∀ r, (X *ᵥ β) r < 3.7)
    (hb : ∀ r, |clogTransform (S := Empty) (some ref) (X *ᵥ β) ids rta none (some a) r| < 700) :
    HasPartials
      (fun θ : Fin n ⊕ K → ℝ => calcLogLikelihood (S := Empty) (fun k => θ (.inr k)) X ids M
        rta choice (clogTransform (some ref)) (some fun i => θ (.inl i)) none ridge weights)
      (gradientIcpt (S := Empty) (clogDerivs ref rta (X *ᵥ β)) X choice
        (modelProbs (S := Empty) β X ids M rta (clogTransform (some ref)) (some a) none) weights ridge
          a β)
      (Sum.elim a β) :=
  gradient_icpt hM hc hw ridge (fun r v v' h => by simp [clogTransform, h])
    (clog_derivs_correct_partial ref hA _ hv _ _) hb

/-- **C23**, Clog-log without outside intercepts (partial: systematic utilities below 3.7). -/
theorem clog_gradient_no_intercepts_partial {M : Matrix R O ℝ} {f : R → O} (hM : Indicates M f)
    {choice : R → ℝ} {c : O → R} (hc : OneChoice f choice c) {weights : Option (R → ℝ)}
    (hw : ObsWeights f weights) (X : Matrix R K ℝ) (ids : R → ι) {rta : Matrix R (Fin (n + 1)) ℝ}
    {alt : R → Fin (n + 1)} (hA : Indicates rta alt) (ref : Fin (n + 1)) (β : K → ℝ)
    (ridge : Option ℝ) (hv : ∀ r, (X *ᵥ β) r < 3.7)
    (hb : ∀ r, |clogTransform (S := Empty) (some ref) (X *ᵥ β) ids rta none none r| < 700) :
    HasPartials
      (fun β => calcLogLikelihood (S := Empty) β X ids M
        rta choice (clogTransform (some ref)) none none ridge weights)
      (gradientNone (S := Empty) (clogDerivs ref rta (X *ᵥ β)) X choice
        (modelProbs (S := Empty) β X ids M rta (clogTransform (some ref)) none none) weights ridge β)
      β :=
  gradient_none hM hc hw ridge (fun r v v' h => by simp [clogTransform, h])
    (clog_derivs_correct_partial ref hA _ hv _ _) hb

/-- **C23**, Asymmetric with outside intercepts (partial: no systematic utility is exactly zero,
except where the natural shape is `1/J`). -/
theorem asym_gradient_partial {M : Matrix R O ℝ} {f : R → O} (hM : Indicates M f) {choice : R → ℝ}
    {c : O → R} (hc : OneChoice f choice c) {weights : Option (R → ℝ)} (hw : ObsWeights f weights)
    (X : Matrix R K ℝ) (ids : R → ι) {rta : Matrix R (Fin (n + 1)) ℝ} {alt : R → Fin (n + 1)}
    (hA : Indicates rta alt) (hn : 0 < n) (sref ref : Fin (n + 1)) (s : Fin n → ℝ) (a : Fin n → ℝ)
    (β : K → ℝ) (ridge : Option ℝ)
    (hv : ∀ r, (X *ᵥ β) r ≠ 0 ∨ convertEtaToC sref s (alt r) = 1 / ((n + 1 : ℕ) : ℝ))
    (hb : ∀ r, |asymTransform sref (some ref) (X *ᵥ β) ids rta (some s) (some a) r| < 700) :
    HasPartials
      (fun θ : Fin n ⊕ (Fin n ⊕ K) → ℝ => calcLogLikelihood (fun k => θ (.inr (.inr k))) X ids M
        rta choice (asymTransform sref (some ref)) (some fun i => θ (.inr (.inl i)))
        (some fun j => θ (.inl j)) ridge weights)
      (gradientBoth (asymDerivs sref ref rta s (X *ᵥ β)) X choice
        (modelProbs β X ids M rta (asymTransform sref (some ref)) (some a) (some s)) weights ridge
          s a β)
      (Sum.elim s (Sum.elim a β)) :=
  gradient_both hM hc hw ridge (fun r v v' h => by simp [asymTransform, h])
    (asym_derivs_correct_partial hn sref ref hA _ _ _ _ hv) hb

/-- **C23**, Asymmetric without outside intercepts (partial, as above). -/
theorem asym_gradient_no_intercepts_partial {M : Matrix R O ℝ} {f : R → O} (hM : Indicates M f)
    {choice : R → ℝ} {c : O → R} (hc : OneChoice f choice c) {weights : Option (R → ℝ)}
    (hw : ObsWeights f weights) (X : Matrix R K ℝ) (ids : R → ι) {rta : Matrix R (Fin (n + 1)) ℝ}
    {alt : R → Fin (n + 1)} (hA : Indicates rta alt) (hn : 0 < n) (sref ref : Fin (n + 1))
    (s : Fin n → ℝ) (β : K → ℝ) (ridge : Option ℝ)
    (hv : ∀ r, (X *ᵥ β) r ≠ 0 ∨ convertEtaToC sref s (alt r) = 1 / ((n + 1 : ℕ) : ℝ))
    (hb : ∀ r, |asymTransform sref (some ref) (X *ᵥ β) ids rta (some s) none r| < 700) :
    HasPartials
      (fun θ : Fin n ⊕ K → ℝ => calcLogLikelihood (fun k => θ (.inr k)) X ids M
        rta choice (asymTransform sref (some ref)) none (some fun j => θ (.inl j)) ridge weights)
      (gradientShape (asymDerivs sref ref rta s (X *ᵥ β)) X choice
        (modelProbs β X ids M rta (asymTransform sref (some ref)) none (some s)) weights ridge s β)
      (Sum.elim s β) :=
  gradient_shape hM hc hw ridge (fun r v v' h => by simp [asymTransform, h])
    (asym_derivs_correct_partial hn sref ref hA _ _ _ _ hv) hb

/-! ## Non-vacuity: the example data set of `Props/Probabilities.lean`, weighted and penalised -/

example (X : Matrix (Fin 3) (Fin 2) ℝ) :
    HasPartials
      (fun β => calcLogLikelihood (S := Empty) (I := Empty) β X (fun r => r) exM
        (1 : Matrix (Fin 3) (Fin 3) ℝ) exChoice mnlTransform none none (some 0.5) (some fun _ => 2))
      (gradientNone (S := Empty) (I := Empty) mnlDerivs X exChoice
        (modelProbs (S := Empty) (I := Empty) 0 X (fun r => r) exM (1 : Matrix (Fin 3) (Fin 3) ℝ) mnlTransform none none)
        (some fun _ => 2) (some 0.5) 0) 0 :=
  mnl_gradient exM_indicates exOneChoice (by intro w h; cases h; simp) X _ _ 0 _ (by simp)

end Pylogit
