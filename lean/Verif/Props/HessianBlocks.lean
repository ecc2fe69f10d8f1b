import Verif.Props.Fisher

/-!
# C25: what `calc_hessian` computes for every logit-type model

For every branch: the negative weighted sum over observations of the covariances, under the choice
probabilities, of the derivatives of the transformed utilities; and the derivative of the gradient is
this matrix plus a term with the second derivatives of the transformed utilities.
-/

set_option linter.unusedSectionVars false

open Finset Matrix Function

namespace Pylogit

open Spec

variable {R O A K S I ι P : Type} [Fintype R] [DecidableEq R] [Fintype O] [DecidableEq O]
  [Fintype K] [DecidableEq K] [Fintype S] [DecidableEq S] [Fintype I] [DecidableEq I]
  [Fintype P] [DecidableEq P]

/-- The covariance of `x` and `y` over the rows of an observation under the probabilities `p`. -/
def Spec.obsCov (f : R → O) (p x y : R → ℝ) (o : O) : ℝ :=
  ∑ r ∈ rowsOf f o, p r * (x r * y r) -
    (∑ r ∈ rowsOf f o, p r * x r) * ∑ r ∈ rowsOf f o, p r * y r

/-- `H` is minus the weighted sum over observations of the covariances of the partial derivatives of the
transformed utilities `h`, minus twice the ridge penalty on the diagonal. -/
def Spec.CovarianceHessian (H : Matrix P P ℝ) (h : (P → ℝ) → R → ℝ) (θ : P → ℝ) (f : R → O)
    (p : R → ℝ) (ridge : Option ℝ) (w : O → ℝ) : Prop :=
  ∃ J : Matrix R P ℝ, HasJacobian h J θ ∧ ∀ i j,
    H i j = -∑ o, w o * obsCov f p (fun r => J r i) (fun r => J r j) o
      - 2 * ridge.getD 0 * (if i = j then 1 else 0)

private lemma cov_of_jacobian {M : Matrix R O ℝ} {f : R → O} (hM : Indicates M f) {c : O → R}
    (hc : ∀ o, f (c o) = o) {weights : Option (R → ℝ)} (hw : ObsWeights f weights)
    {h : (P → ℝ) → R → ℝ} {θ : P → ℝ} {J : Matrix R P ℝ} (hJ : HasJacobian h J θ) (p : R → ℝ)
    (ridge : Option ℝ) :
    CovarianceHessian (ridgeMat ridge (negQuad J J p M weights)) h θ f p ridge
      (fun o => (weights.getD fun _ => 1) (c o)) := by
  refine ⟨J, hJ, fun i j => ?_⟩
  rw [ridgeMat_apply, negQuad_apply hM]
  congr 2
  refine Finset.sum_congr rfl fun o _ => ?_
  have e : ∀ g : R → ℝ, ∑ r ∈ rowsOf f o, defaultWeights weights r * p r * g r =
      (weights.getD fun _ => 1) (c o) * ∑ r ∈ rowsOf f o, p r * g r := by
    intro g
    rw [Finset.mul_sum]
    refine Finset.sum_congr rfl fun r hr => ?_
    rw [obsWeights_default hw r (c o) ((mem_rowsOf.1 hr).trans (hc o).symm)]
    simp only [defaultWeights]; ring
  have e2 : ∑ r ∈ rowsOf f o, defaultWeights weights r * p r * J r i * J r j =
      ∑ r ∈ rowsOf f o, defaultWeights weights r * p r * (J r i * J r j) :=
    Finset.sum_congr rfl fun r _ => by ring
  rw [e2, e fun r => J r i * J r j, e fun r => J r i, obsCov]
  ring

/-- The Jacobian of the transformed utilities in shapes, intercepts and coefficients. -/
private lemma jacobian_both {X : Matrix R K ℝ} {ids : R → ι} {rta : Matrix R A ℝ}
    {T : Transform R A S I ι} {d : Derivs R S I} {s : S → ℝ} {a : I → ℝ} {β : K → ℝ}
    (hT : Rowwise T ids rta (some s) (some a))
    (hd : DerivsCorrect T d (X *ᵥ β) ids rta (some s) (some a)) :
    HasJacobian (fun θ : S ⊕ (I ⊕ K) → ℝ => T (X *ᵥ fun k => θ (.inr (.inr k))) ids rta
      (some fun j => θ (.inl j)) (some fun i => θ (.inr (.inl i))))
      (fromCols d.dhdc (fromCols d.dhdalpha (d.dhdv * X))) (Sum.elim s (Sum.elim a β)) := by
  rintro r (j | i | k)
  · simpa using hd.dc s rfl r j
  · simpa using hd.da a rfl r i
  · have e : ∀ t, (fun k' => update (Sum.elim s (Sum.elim a β)) (.inr (.inr k)) t (.inr (.inr k'))) =
        update β k t := by
      intro t; funext k'; simp [update]
    simpa [e] using beta_partials hT hd r k

private lemma jacobian_shape {X : Matrix R K ℝ} {ids : R → ι} {rta : Matrix R A ℝ}
    {T : Transform R A S I ι} {d : Derivs R S I} {s : S → ℝ} {β : K → ℝ}
    (hT : Rowwise T ids rta (some s) none)
    (hd : DerivsCorrect T d (X *ᵥ β) ids rta (some s) none) :
    HasJacobian (fun θ : S ⊕ K → ℝ => T (X *ᵥ fun k => θ (.inr k)) ids rta
      (some fun j => θ (.inl j)) none)
      (fromCols d.dhdc (d.dhdv * X)) (Sum.elim s β) := by
  rintro r (j | k)
  · simpa using hd.dc s rfl r j
  · have e : ∀ t, (fun k' => update (Sum.elim s β) (.inr k) t (.inr k')) = update β k t := by
      intro t; funext k'; simp [update]
    simpa [e] using beta_partials hT hd r k

private lemma jacobian_icpt {X : Matrix R K ℝ} {ids : R → ι} {rta : Matrix R A ℝ}
    {T : Transform R A S I ι} {d : Derivs R S I} {a : I → ℝ} {β : K → ℝ}
    (hT : Rowwise T ids rta none (some a))
    (hd : DerivsCorrect T d (X *ᵥ β) ids rta none (some a)) :
    HasJacobian (fun θ : I ⊕ K → ℝ => T (X *ᵥ fun k => θ (.inr k)) ids rta
      none (some fun i => θ (.inl i)))
      (fromCols d.dhdalpha (d.dhdv * X)) (Sum.elim a β) := by
  rintro r (j | k)
  · simpa using hd.da a rfl r j
  · have e : ∀ t, (fun k' => update (Sum.elim a β) (.inr k) t (.inr k')) = update β k t := by
      intro t; funext k'; simp [update]
    simpa [e] using beta_partials hT hd r k

/-- **C25**, what is computed, shape and intercept parameters. -/
theorem hessian_covariance_both {M : Matrix R O ℝ} {f : R → O} (hM : Indicates M f) {c : O → R}
    (hc : ∀ o, f (c o) = o) {weights : Option (R → ℝ)} (hw : ObsWeights f weights)
    {X : Matrix R K ℝ} {ids : R → ι} {rta : Matrix R A ℝ} {T : Transform R A S I ι}
    {d : Derivs R S I} {s : S → ℝ} {a : I → ℝ} {β : K → ℝ} (p : R → ℝ) (ridge : Option ℝ)
    (hT : Rowwise T ids rta (some s) (some a))
    (hd : DerivsCorrect T d (X *ᵥ β) ids rta (some s) (some a)) :
    CovarianceHessian (hessianBoth d X p M ridge weights)
      (fun θ => T (X *ᵥ fun k => θ (.inr (.inr k))) ids rta
        (some fun j => θ (.inl j)) (some fun i => θ (.inr (.inl i))))
      (Sum.elim s (Sum.elim a β)) f p ridge (fun o => (weights.getD fun _ => 1) (c o)) := by
  rw [hessianBoth_eq hM hw]
  exact cov_of_jacobian hM hc hw (jacobian_both hT hd) p ridge

/-- **C25**, what is computed, shape parameters only. -/
theorem hessian_covariance_shape {M : Matrix R O ℝ} {f : R → O} (hM : Indicates M f) {c : O → R}
    (hc : ∀ o, f (c o) = o) {weights : Option (R → ℝ)} (hw : ObsWeights f weights)
    {X : Matrix R K ℝ} {ids : R → ι} {rta : Matrix R A ℝ} {T : Transform R A S I ι}
    {d : Derivs R S I} {s : S → ℝ} {β : K → ℝ} (p : R → ℝ) (ridge : Option ℝ)
    (hT : Rowwise T ids rta (some s) none)
    (hd : DerivsCorrect T d (X *ᵥ β) ids rta (some s) none) :
    CovarianceHessian (hessianShape d X p M ridge weights)
      (fun θ => T (X *ᵥ fun k => θ (.inr k)) ids rta (some fun j => θ (.inl j)) none)
      (Sum.elim s β) f p ridge (fun o => (weights.getD fun _ => 1) (c o)) := by
  rw [hessianShape_eq hM hw]
  exact cov_of_jacobian hM hc hw (jacobian_shape hT hd) p ridge

/-- **C25**, what is computed, intercept parameters only. -/
theorem hessian_covariance_icpt {M : Matrix R O ℝ} {f : R → O} (hM : Indicates M f) {c : O → R}
    (hc : ∀ o, f (c o) = o) {weights : Option (R → ℝ)} (hw : ObsWeights f weights)
    {X : Matrix R K ℝ} {ids : R → ι} {rta : Matrix R A ℝ} {T : Transform R A S I ι}
    {d : Derivs R S I} {a : I → ℝ} {β : K → ℝ} (p : R → ℝ) (ridge : Option ℝ)
    (hT : Rowwise T ids rta none (some a))
    (hd : DerivsCorrect T d (X *ᵥ β) ids rta none (some a)) :
    CovarianceHessian (hessianIcpt d X p M ridge weights)
      (fun θ => T (X *ᵥ fun k => θ (.inr k)) ids rta none (some fun i => θ (.inl i)))
      (Sum.elim a β) f p ridge (fun o => (weights.getD fun _ => 1) (c o)) := by
  rw [hessianIcpt_eq hM hw]
  exact cov_of_jacobian hM hc hw (jacobian_icpt hT hd) p ridge

/-- **C25**, what is computed, coefficients only. -/
theorem hessian_covariance_none {M : Matrix R O ℝ} {f : R → O} (hM : Indicates M f) {c : O → R}
    (hc : ∀ o, f (c o) = o) {weights : Option (R → ℝ)} (hw : ObsWeights f weights)
    {X : Matrix R K ℝ} {ids : R → ι} {rta : Matrix R A ℝ} {T : Transform R A S I ι}
    {d : Derivs R S I} {β : K → ℝ} (p : R → ℝ) (ridge : Option ℝ)
    (hT : Rowwise T ids rta none none)
    (hd : DerivsCorrect T d (X *ᵥ β) ids rta none none) :
    CovarianceHessian (hessianNone d X p M ridge weights)
      (fun β => T (X *ᵥ β) ids rta none none)
      β f p ridge (fun o => (weights.getD fun _ => 1) (c o)) :=
  cov_of_jacobian hM hc hw (beta_partials hT hd) p ridge

/-- **C25**, what is missing, shape and intercept parameters: the derivative of the gradient is the
computed matrix plus the sum over rows of the weighted residual times the second derivatives `J2` of
the transformed utility of the row. -/
theorem hessian_missing_term_both {M : Matrix R O ℝ} {f : R → O} (hM : Indicates M f)
    (choice : R → ℝ) {weights : Option (R → ℝ)} (hw : ObsWeights f weights)
    {X : Matrix R K ℝ} {ids : R → ι} {rta : Matrix R A ℝ} {T : Transform R A S I ι}
    {d : (S ⊕ (I ⊕ K) → ℝ) → Derivs R S I} {s : S → ℝ} {a : I → ℝ} {β : K → ℝ} (ridge : Option ℝ)
    (hT : Rowwise T ids rta (some s) (some a))
    (hd : DerivsCorrect T (d (Sum.elim s (Sum.elim a β))) (X *ᵥ β) ids rta (some s) (some a))
    {J2 : R → S ⊕ (I ⊕ K) → S ⊕ (I ⊕ K) → ℝ}
    (hJ2 : ∀ r i, HasPartials
      (fun θ => fromCols (d θ).dhdc (fromCols (d θ).dhdalpha ((d θ).dhdv * X)) r i) (J2 r i)
      (Sum.elim s (Sum.elim a β)))
    (hb : ∀ r, |T (X *ᵥ β) ids rta (some s) (some a) r| < 700) :
    HasJacobian
      (fun θ => gradientBoth (d θ) X choice
        (modelProbs (fun k => θ (.inr (.inr k))) X ids M rta T (some fun i => θ (.inr (.inl i)))
          (some fun j => θ (.inl j))) weights ridge
        (fun j => θ (.inl j)) (fun i => θ (.inr (.inl i))) (fun k => θ (.inr (.inr k))))
      (fun i j => hessianBoth (d (Sum.elim s (Sum.elim a β))) X
          (modelProbs β X ids M rta T (some a) (some s)) M ridge weights i j +
        ∑ r, defaultWeights weights r *
          (choice r - modelProbs β X ids M rta T (some a) (some s) r) * J2 r i j)
      (Sum.elim s (Sum.elim a β)) := by
  have key := gradient_partials hM choice weights ridge
    (J := fun θ => fromCols (d θ).dhdc (fromCols (d θ).dhdalpha ((d θ).dhdv * X)))
    (jacobian_both hT hd) hJ2 (by simpa using hb)
  intro i j
  rw [hessianBoth_eq hM hw]
  refine (key i j).congr_of_eventuallyEq (Filter.Eventually.of_forall fun t => ?_)
  simp only [gradientBoth, ridgeGrad_eq]
  rcases i with i | i | i <;> simp [vecMul, dotProduct, modelProbs]

/-- **C25**, what is missing in one entry, shape parameters only: here only the second derivatives `m`
that belong to the entry are needed. -/
theorem hessian_missing_entry_shape {M : Matrix R O ℝ} {f : R → O} (hM : Indicates M f)
    (choice : R → ℝ) {weights : Option (R → ℝ)} (hw : ObsWeights f weights)
    {X : Matrix R K ℝ} {ids : R → ι} {rta : Matrix R A ℝ} {T : Transform R A S I ι}
    {d : (S ⊕ K → ℝ) → Derivs R S I} {s : S → ℝ} {β : K → ℝ} (ridge : Option ℝ)
    (hT : Rowwise T ids rta (some s) none)
    (hd : DerivsCorrect T (d (Sum.elim s β)) (X *ᵥ β) ids rta (some s) none)
    {i j : S ⊕ K} {m : R → ℝ}
    (hm : ∀ r, HasDerivAt (fun t => fromCols (d (update (Sum.elim s β) j t)).dhdc
      ((d (update (Sum.elim s β) j t)).dhdv * X) r i) (m r) (Sum.elim s β j))
    (hb : ∀ r, |T (X *ᵥ β) ids rta (some s) none r| < 700) :
    HasDerivAt
      (fun t => (fun θ => gradientShape (d θ) X choice
        (modelProbs (fun k => θ (.inr k)) X ids M rta T none (some fun j => θ (.inl j))) weights ridge
        (fun j => θ (.inl j)) (fun k => θ (.inr k))) (update (Sum.elim s β) j t) i)
      (hessianShape (d (Sum.elim s β)) X
          (modelProbs β X ids M rta T none (some s)) M ridge weights i j +
        ∑ r, defaultWeights weights r *
          (choice r - modelProbs β X ids M rta T none (some s) r) * m r)
      (Sum.elim s β j) := by
  have key := gradient_partial_entry hM choice weights ridge
    (J := fun θ => fromCols (d θ).dhdc ((d θ).dhdv * X))
    (jacobian_shape hT hd) hm (by simpa using hb)
  rw [hessianShape_eq hM hw]
  refine key.congr_of_eventuallyEq (Filter.Eventually.of_forall fun t => ?_)
  simp only [gradientShape, ridgeGrad_eq]
  rcases i with i | i <;> simp [vecMul, dotProduct, modelProbs]

/-- **C25**, what is missing, shape parameters only. -/
theorem hessian_missing_term_shape {M : Matrix R O ℝ} {f : R → O} (hM : Indicates M f)
    (choice : R → ℝ) {weights : Option (R → ℝ)} (hw : ObsWeights f weights)
    {X : Matrix R K ℝ} {ids : R → ι} {rta : Matrix R A ℝ} {T : Transform R A S I ι}
    {d : (S ⊕ K → ℝ) → Derivs R S I} {s : S → ℝ} {β : K → ℝ} (ridge : Option ℝ)
    (hT : Rowwise T ids rta (some s) none)
    (hd : DerivsCorrect T (d (Sum.elim s β)) (X *ᵥ β) ids rta (some s) none)
    {J2 : R → S ⊕ K → S ⊕ K → ℝ}
    (hJ2 : ∀ r i, HasPartials
      (fun θ => fromCols (d θ).dhdc ((d θ).dhdv * X) r i) (J2 r i) (Sum.elim s β))
    (hb : ∀ r, |T (X *ᵥ β) ids rta (some s) none r| < 700) :
    HasJacobian
      (fun θ => gradientShape (d θ) X choice
        (modelProbs (fun k => θ (.inr k)) X ids M rta T none (some fun j => θ (.inl j))) weights ridge
        (fun j => θ (.inl j)) (fun k => θ (.inr k)))
      (fun i j => hessianShape (d (Sum.elim s β)) X
          (modelProbs β X ids M rta T none (some s)) M ridge weights i j +
        ∑ r, defaultWeights weights r *
          (choice r - modelProbs β X ids M rta T none (some s) r) * J2 r i j)
      (Sum.elim s β) :=
  fun i j => hessian_missing_entry_shape hM choice hw ridge hT hd (fun r => hJ2 r i j) hb

/-- **C25**, what is missing, intercept parameters only. -/
theorem hessian_missing_term_icpt {M : Matrix R O ℝ} {f : R → O} (hM : Indicates M f)
    (choice : R → ℝ) {weights : Option (R → ℝ)} (hw : ObsWeights f weights)
    {X : Matrix R K ℝ} {ids : R → ι} {rta : Matrix R A ℝ} {T : Transform R A S I ι}
    {d : (I ⊕ K → ℝ) → Derivs R S I} {a : I → ℝ} {β : K → ℝ} (ridge : Option ℝ)
    (hT : Rowwise T ids rta none (some a))
    (hd : DerivsCorrect T (d (Sum.elim a β)) (X *ᵥ β) ids rta none (some a))
    {J2 : R → I ⊕ K → I ⊕ K → ℝ}
    (hJ2 : ∀ r i, HasPartials
      (fun θ => fromCols (d θ).dhdalpha ((d θ).dhdv * X) r i) (J2 r i) (Sum.elim a β))
    (hb : ∀ r, |T (X *ᵥ β) ids rta none (some a) r| < 700) :
    HasJacobian
      (fun θ => gradientIcpt (d θ) X choice
        (modelProbs (fun k => θ (.inr k)) X ids M rta T (some fun i => θ (.inl i)) none) weights ridge
        (fun i => θ (.inl i)) (fun k => θ (.inr k)))
      (fun i j => hessianIcpt (d (Sum.elim a β)) X
          (modelProbs β X ids M rta T (some a) none) M ridge weights i j +
        ∑ r, defaultWeights weights r *
          (choice r - modelProbs β X ids M rta T (some a) none r) * J2 r i j)
      (Sum.elim a β) := by
  have key := gradient_partials hM choice weights ridge
    (J := fun θ => fromCols (d θ).dhdalpha ((d θ).dhdv * X))
    (jacobian_icpt hT hd) hJ2 (by simpa using hb)
  intro i j
  rw [hessianIcpt_eq hM hw]
  refine (key i j).congr_of_eventuallyEq (Filter.Eventually.of_forall fun t => ?_)
  simp only [gradientIcpt, ridgeGrad_eq]
  rcases i with i | i <;> simp [vecMul, dotProduct, modelProbs]

/-! ### Actual models -/

variable {n : ℕ}

/-- **C25**, what is computed for Scobit with outside intercepts. -/
theorem scobit_hessian_covariance {M : Matrix R O ℝ} {f : R → O} (hM : Indicates M f) {c : O → R}
    (hc : ∀ o, f (c o) = o) {weights : Option (R → ℝ)} (hw : ObsWeights f weights)
    (X : Matrix R K ℝ) (ids : R → ι) {rta : Matrix R (Fin (n + 1)) ℝ} {alt : R → Fin (n + 1)}
    (hA : Indicates rta alt) (ref : Fin (n + 1)) (s : Fin (n + 1) → ℝ) (a : Fin n → ℝ) (β : K → ℝ)
    (p : R → ℝ) (ridge : Option ℝ) :
    CovarianceHessian (hessianBoth (scobitDerivs ref rta s (X *ᵥ β)) X p M ridge weights)
      (fun θ => scobitTransform (some ref) (X *ᵥ fun k => θ (.inr (.inr k))) ids rta
        (some fun j => θ (.inl j)) (some fun i => θ (.inr (.inl i))))
      (Sum.elim s (Sum.elim a β)) f p ridge (fun o => (weights.getD fun _ => 1) (c o)) :=
  hessian_covariance_both hM hc hw p ridge (fun r v v' h => by simp [scobitTransform, h])
    (scobit_derivs_correct ref hA _ _ _ _)

/-- **C25**, what is computed for Uneven without outside intercepts. -/
theorem uneven_hessian_covariance_no_intercepts {M : Matrix R O ℝ} {f : R → O} (hM : Indicates M f)
    {c : O → R} (hc : ∀ o, f (c o) = o) {weights : Option (R → ℝ)} (hw : ObsWeights f weights)
    (X : Matrix R K ℝ) (ids : R → ι) {rta : Matrix R (Fin (n + 1)) ℝ} {alt : R → Fin (n + 1)}
    (hA : Indicates rta alt) (ref : Fin (n + 1)) (s : Fin (n + 1) → ℝ) (β : K → ℝ)
    (p : R → ℝ) (ridge : Option ℝ) :
    CovarianceHessian (hessianShape (unevenDerivs ref rta s (X *ᵥ β)) X p M ridge weights)
      (fun θ => unevenTransform (some ref) (X *ᵥ fun k => θ (.inr k)) ids rta
        (some fun j => θ (.inl j)) none)
      (Sum.elim s β) f p ridge (fun o => (weights.getD fun _ => 1) (c o)) :=
  hessian_covariance_shape hM hc hw p ridge (fun r v v' h => by simp [unevenTransform, h])
    (uneven_derivs_correct ref hA _ _ _ _)

/-- **C25**, what is missing for Clog-log with outside intercepts (utilities below 3.7): the rows and
columns of the intercepts are complete, those of the coefficients lack the same term as without
intercepts. -/
theorem clog_hessian_missing_term_intercepts {M : Matrix R O ℝ} {f : R → O} (hM : Indicates M f)
    (choice : R → ℝ) {weights : Option (R → ℝ)} (hw : ObsWeights f weights)
    (X : Matrix R K ℝ) (ids : R → ι) {rta : Matrix R (Fin (n + 1)) ℝ} {alt : R → Fin (n + 1)}
    (hA : Indicates rta alt) (ref : Fin (n + 1)) (a : Fin n → ℝ) (β : K → ℝ) (ridge : Option ℝ)
    (hv : ∀ r, (X *ᵥ β) r < 3.7)
    (hb : ∀ r, |clogTransform (S := Empty) (some ref) (X *ᵥ β) ids rta none (some a) r| < 700) :
    HasJacobian
      (fun θ : Fin n ⊕ K → ℝ => gradientIcpt (S := Empty)
        (clogDerivs ref rta (X *ᵥ fun k => θ (.inr k))) X choice
        (modelProbs (S := Empty) (fun k => θ (.inr k)) X ids M rta (clogTransform (some ref))
          (some fun i => θ (.inl i)) none) weights ridge
        (fun i => θ (.inl i)) (fun k => θ (.inr k)))
      (fun i j => hessianIcpt (S := Empty) (clogDerivs ref rta (X *ᵥ β)) X
          (modelProbs (S := Empty) β X ids M rta (clogTransform (some ref)) (some a) none) M ridge
          weights i j +
        ∑ r, defaultWeights weights r *
          (choice r - modelProbs (S := Empty) β X ids M rta (clogTransform (some ref)) (some a) none r) *
          (match i, j with
            | .inr k, .inr l => clogSecond ((X *ᵥ β) r) * X r k * X r l
            | _, _ => 0))
      (Sum.elim a β) := by
  refine hessian_missing_term_icpt (S := Empty) hM choice hw ridge
    (d := fun θ => clogDerivs ref rta (X *ᵥ fun k => θ (.inr k)))
    (J2 := fun r i j => match i, j with
            | .inr k, .inr l => clogSecond ((X *ᵥ β) r) * X r k * X r l
            | _, _ => 0)
    (fun r v v' h => by simp [clogTransform, h])
    (clog_derivs_correct_partial ref hA _ hv _ _) ?_ hb
  have hrow : ∀ r l t, (X *ᵥ fun k' => update (Sum.elim a β) (.inr l) t (.inr k')) r =
      (X *ᵥ β) r + (t - β l) * X r l := by
    intro r k t
    have e : (fun k' => update (Sum.elim a β) (.inr k) t (.inr k')) = update β k t := by
      funext k'; simp [update]
    rw [e]
    simp only [mulVec, dotProduct]
    rw [← sub_eq_iff_eq_add', ← Finset.sum_sub_distrib, Finset.sum_eq_single k]
    · simp; ring
    · intro j _ hj; simp [hj]
    · simp
  rintro r (i | k) (j | l)
  · simpa [clogDerivs] using hasDerivAt_const (a j) (dhDAlpha ref rta r i)
  · simpa [clogDerivs] using hasDerivAt_const (β l) (dhDAlpha ref rta r i)
  · have : (fun t => fromCols (clogDerivs ref rta (X *ᵥ fun k' =>
        update (Sum.elim a β) (.inl j) t (.inr k'))).dhdalpha ((clogDerivs ref rta (X *ᵥ fun k' =>
        update (Sum.elim a β) (.inl j) t (.inr k'))).dhdv * X) r (.inr k)) =
        fun _ => clogDerivV ((X *ᵥ β) r) * X r k := by
      funext t
      have e : (fun k' => update (Sum.elim a β) (.inl j) t (.inr k')) = β := by
        funext k'; simp [update]
      simp only [e]
      simp [clogDerivs, Matrix.diagonal_mul]
    rw [this]
    exact hasDerivAt_const _ _
  · have : (fun t => fromCols (clogDerivs ref rta (X *ᵥ fun k' =>
        update (Sum.elim a β) (.inr l) t (.inr k'))).dhdalpha ((clogDerivs ref rta (X *ᵥ fun k' =>
        update (Sum.elim a β) (.inr l) t (.inr k'))).dhdv * X) r (.inr k)) =
        fun t => clogDerivV ((X *ᵥ β) r + (t - β l) * X r l) * X r k := by
      funext t
      rw [fromCols_apply_inr, clogDerivs, Matrix.diagonal_mul, hrow]
    rw [this]
    have h1 : HasDerivAt (fun t => (X *ᵥ β) r + (t - β l) * X r l) (X r l) (β l) := by
      simpa using (((hasDerivAt_id (β l)).sub_const (β l)).mul_const (X r l)).const_add ((X *ᵥ β) r)
    have h2 := HasDerivAt.comp (h₂ := clogDerivV) (β l)
      (by simpa using clogSecond_hasDerivAt ((X *ᵥ β) r)) h1
    refine (h2.mul_const (X r k)).congr_deriv (by simp; ring)

/-- Data meeting the hypotheses: one observation, two alternatives with one row each; any shapes,
intercept, coefficients, probabilities and penalty. -/
example (s : Fin 2 → ℝ) (a : Fin 1 → ℝ) (β : Fin 2 → ℝ) (p : Fin 2 → ℝ) (ρ : ℝ) :
    CovarianceHessian
      (hessianBoth (scobitDerivs 1 (1 : Matrix (Fin 2) (Fin 2) ℝ) s (exTwoCols.design *ᵥ β))
        exTwoCols.design p exTwoCols.rowsToObs (some ρ) (some fun _ => 3))
      (fun θ => scobitTransform (some 1) (exTwoCols.design *ᵥ fun k => θ (.inr (.inr k)))
        exTwoCols.altIDs 1 (some fun j => θ (.inl j)) (some fun i => θ (.inr (.inl i))))
      (Sum.elim s (Sum.elim a β)) (fun _ => (0 : Fin 1)) p (some ρ) (fun _ => 3) :=
  scobit_hessian_covariance (c := fun _ => 0) exTwoCols_indicates
    (fun o => by fin_cases o; rfl) (by intro w h; cases h; simp) _ _ (alt := id)
    (by intro r o; simp [Matrix.one_apply]) 1 s a β p (some ρ)

/-- The covariance of the two values of a fair two-way choice. -/
example : obsCov (fun _ : Fin 2 => (0 : Fin 1)) (fun _ => 1 / 2) ![1, 0] ![1, 0] 0 = 1 / 4 := by
  simp [obsCov, rowsOf]
  norm_num

end Pylogit
