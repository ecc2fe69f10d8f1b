import Mathlib.Analysis.Calculus.LocalExtr.Basic
import Verif.Props.Boot
import Verif.Props.EstimationWitness

/-!
# C79: gradient norms of replicates
-/

set_option linter.unusedSectionVars false

open Finset Matrix

namespace Pylogit

open Spec

variable {R O A K S I N M D P ι V : Type}

section

variable [Fintype P]

private lemma norm_sq (g : P → ℝ) : 0 ≤ euclideanNorm g ∧ euclideanNorm g ^ 2 = ∑ i, g i ^ 2 :=
  ⟨Real.sqrt_nonneg _, Real.sq_sqrt (sum_nonneg fun _ _ => sq_nonneg _)⟩

private lemma norm_zero (g : P → ℝ) : euclideanNorm g = 0 ↔ g = 0 := by
  unfold euclideanNorm
  rw [Real.sqrt_eq_zero (sum_nonneg fun _ _ => sq_nonneg _),
    Finset.sum_eq_zero_iff_of_nonneg fun _ _ => sq_nonneg _]
  simp only [mem_univ, true_imp_iff, sq_eq_zero_iff, funext_iff, Pi.zero_apply]

private lemma partials_unique [DecidableEq P] {F : (P → ℝ) → ℝ} {g g' x : P → ℝ}
    (h : HasPartials F g x) (h' : HasPartials F g' x) : g = g' :=
  funext fun i => (h i).unique (h' i)

/-- **C79**, sizes and values.  With an accepted estimation object, the result has one number per replicate, in
the order of the replicates, and each is the Euclidean norm of the gradient of the log-likelihood at
that replicate. -/
theorem gradient_norms (kwarg : String) (e : Estimator P) (boot jack : Option (List (P → ℝ)))
    (reps : List (P → ℝ))
    (h : kwarg = "bootstrap" ∧ boot = some reps ∨ kwarg = "jackknife" ∧ jack = some reps) :
    ∃ norms, gradientNormForReplicates kwarg (.ok e) boot jack = .ok norms ∧
      norms.length = reps.length ∧
      ∀ (i : ℕ) x, reps[i]? = some x → ∃ v, norms[i]? = some v ∧ 0 ≤ v ∧ v ^ 2 = ∑ k, e.gradient x k ^ 2 := by
  refine ⟨reps.map fun x => euclideanNorm (e.gradient x), ?_, by simp, fun i x hx => ?_⟩
  · rcases h with ⟨rfl, rfl⟩ | ⟨rfl, rfl⟩
    · simp [gradientNormForReplicates, ensureReplicatesKwarg, bind, Except.bind, attrValues]
    · simp [gradientNormForReplicates, ensureReplicatesKwarg, bind, Except.bind, attrValues]
  · exact ⟨_, by rw [List.getElem?_map, hx]; rfl, norm_sq _⟩

/-- **C79**, refusals: another kind of replicates is a `ValueError`; replicates that were not generated are an
`AttributeError`; the errors of the estimation object come before the latter. -/
theorem gradient_norm_refusals (kwarg : String) (est : Except Err (Estimator P))
    (boot jack : Option (List (P → ℝ))) :
    (kwarg ≠ "bootstrap" → kwarg ≠ "jackknife" →
      gradientNormForReplicates kwarg est boot jack = .error .valueError) ∧
    (∀ e, est = .ok e → (kwarg = "bootstrap" ∧ boot = none ∨ kwarg = "jackknife" ∧ jack = none) →
      gradientNormForReplicates kwarg est boot jack = .error .attributeError) ∧
    (∀ err, est = .error err → (kwarg = "bootstrap" ∨ kwarg = "jackknife") →
      gradientNormForReplicates kwarg est boot jack = .error err) := by
  refine ⟨fun h1 h2 => ?_, ?_, ?_⟩
  · simp [gradientNormForReplicates, ensureReplicatesKwarg, bind, Except.bind, h1, h2]
  · rintro e rfl (⟨rfl, rfl⟩ | ⟨rfl, rfl⟩) <;>
      simp [gradientNormForReplicates, ensureReplicatesKwarg, bind, Except.bind, attrValues]
  · rintro e rfl (rfl | rfl) <;>
      simp [gradientNormForReplicates, ensureReplicatesKwarg, bind, Except.bind]

/-- **C79**, stationarity.  Where the gradient function is correct (C23, C38, C45), the number is zero iff
every partial derivative of the log-likelihood is zero at the replicate. -/
theorem gradient_norm_zero_iff [DecidableEq P] (e : Estimator P) (x : P → ℝ)
    (hg : HasPartials e.logLik (e.gradient x) x) :
    euclideanNorm (e.gradient x) = 0 ↔ HasPartials e.logLik (fun _ => 0) x := by
  rw [norm_zero]
  constructor
  · intro h
    rw [h] at hg
    exact hg
  · intro h
    exact partials_unique hg h

end

/-! ## The multinomial logit model -/

section Mnl

variable [Fintype R] [DecidableEq R] [Fintype O] [DecidableEq O] [Fintype K] [DecidableEq K]

/-- **C79** for the MNL model, without constrained parameters.  Let the estimation object be accepted.  If the
utilities at the replicate are inside the clipping range, its number is zero iff the replicate
maximises the (weighted, penalised) log-likelihood among all coefficients with utilities in the
clipping range. -/
theorem mnl_gradient_norm_zero_iff_maximum_partial [LinearOrder V] [AddGroup V] {obsIds : List V}
    {ridge : Option (PyVal ℝ)} {wArg : WeightsArg} {weights : Option (R → ℝ)} {d : FitData R O A K ι}
    {e : Estimator K} (he : createEstimationObj obsIds ridge none wArg weights (mnlEstimator d) = .ok e)
    {f : R → O} (hM : Indicates d.rowsToObs f) {c : O → R} (hc : OneChoice f d.choice c)
    (hw : ObsWeights f weights) (hw0 : NonnegWeights weights)
    (hρ : ∀ ρ, ridge = some (.num ρ) → 0 ≤ ρ) (β : K → ℝ) (hβ : ∀ r, |(d.design *ᵥ β) r| < 700) :
    euclideanNorm (e.gradient β) = 0 ↔
      ∀ γ : K → ℝ, (∀ r, |(d.design *ᵥ γ) r| ≤ 700) → e.logLik γ ≤ e.logLik β := by
  have hw' : ObsWeights f (estWeights weights) := by
    intro w hw1 r s hrs
    cases weights with
    | none => cases hw1; simp [defaultWeights]
    | some w0 => cases hw1; exact hw w0 rfl r s hrs
  have hw0' : NonnegWeights (estWeights weights) := by
    intro w hw1 r
    cases weights with
    | none => cases hw1; simp [defaultWeights]
    | some w0 => cases hw1; exact hw0 w0 rfl r
  obtain ⟨ρ, hρ', rfl⟩ : ∃ ρ : Option ℝ, (∀ x, ρ = some x → 0 ≤ x) ∧
      e = mnlEstimator d ρ weights none := by
    unfold createEstimationObj at he
    cases hch : estimationChecks ridge obsIds wArg with
    | error err => simp [hch, bind, Except.bind] at he
    | ok u =>
      simp only [hch, bind, Except.bind, Except.ok.injEq] at he
      refine ⟨_, ?_, he.symm⟩
      intro x hx
      cases ridge with
      | none => simp at hx
      | some v =>
        cases v with
        | num y =>
          simp only [Option.some.injEq] at hx
          subst hx
          exact hρ _ rfl
        | _ => simp at hx
  have hpart : HasPartials (mnlEstimator d ρ weights none).logLik
      ((mnlEstimator d ρ weights none).gradient β) β :=
    mnl_gradient hM hc hw' d.design d.altIDs d.rowsToAlts β ρ hβ
  constructor
  · intro h0 γ hγ
    exact mnl_stationary_is_maximum hM hc hw' hw0' d.design d.altIDs d.rowsToAlts hρ' β
      (fun r => (hβ r).le) ((norm_zero _).1 h0) γ hγ
  · intro hmax
    rw [gradient_norm_zero_iff _ _ hpart]
    intro i
    have hloc : IsLocalMax (fun t => (mnlEstimator d ρ weights none).logLik (Function.update β i t))
        (β i) := by
      have hcont : ∀ r, ContinuousAt (fun t => |(d.design *ᵥ Function.update β i t) r|) (β i) := by
        intro r
        refine Continuous.continuousAt ?_
        have hu : Continuous fun t : ℝ => Function.update β i t :=
          continuous_const.update i continuous_id
        have : (fun t : ℝ => |(d.design *ᵥ Function.update β i t) r|) =
            fun t => |∑ k, d.design r k * Function.update β i t k| := rfl
        rw [this]
        exact (continuous_finsetSum _ fun k _ =>
          continuous_const.mul ((continuous_apply k).comp hu)).abs
      have hev : ∀ᶠ t in nhds (β i), ∀ r, |(d.design *ᵥ Function.update β i t) r| < 700 := by
        rw [Filter.eventually_all]
        intro r
        have := (hcont r).eventually_lt (continuousAt_const (y := (700 : ℝ)))
          (by simpa using hβ r)
        exact this
      filter_upwards [hev] with t ht
      rw [Function.update_eq_self]
      exact hmax _ fun r => (ht r).le
    have h1 := hpart i
    have h2 := hloc.hasDerivAt_eq_zero h1
    rw [h2] at h1
    exact h1

/-- **C79** (fails for constrained parameters).  `constrained_pos` does not change the numbers: the gradient is
not masked, so parameters that are kept at their initial values count. -/
theorem gradient_norm_ignores_constraints (d : FitData R O A K ι) (ridge : Option ℝ)
    (weights : Option (R → ℝ)) (constrained : Option (List K)) (kwarg : String)
    (boot jack : Option (List (K → ℝ))) :
    gradientNormForReplicates kwarg (.ok (mnlEstimator d ridge weights constrained)) boot jack =
      gradientNormForReplicates kwarg (.ok (mnlEstimator d ridge weights none)) boot jack := rfl

end Mnl

/-- **C79** (fails for constrained parameters, witness).  With every parameter constrained, the gradient given
to the optimiser is zero, yet the gradient norm of the replicate at zero is not. -/
theorem gradient_norm_constrained_nonzero :
    let e := mnlEstimator exTwoCols none none (some [0, 1])
    (e.negLLAndGrad fun _ => 0).2 = 0 ∧
      ∃ v, gradientNormForReplicates "bootstrap" (.ok e) (some [fun _ => 0]) none = .ok [v] ∧ 0 < v := by
  have hp : (modelProbs (S := Empty) (I := Empty) (fun _ => 0) exTwoCols.design exTwoCols.altIDs
      exTwoCols.rowsToObs exTwoCols.rowsToAlts mnlTransform none none) = fun _ => 1 / 2 :=
    funext exTwoCols_probs
  have hg : ∀ i, (mnlEstimator exTwoCols none none (some [0, 1])).gradient (fun _ => 0) i = 1 / 2 := by
    intro i
    simp only [mnlEstimator, estimatorNone]
    rw [hp]
    fin_cases i <;>
    · simp [gradientNone, mnlDerivs, ridgeGrad, vecMul, dotProduct, dLLdh, estWeights, defaultWeights,
        exTwoCols]
      norm_num
  refine ⟨?_, ?_⟩
  · funext i
    simp only [Estimator.negLLAndGrad, mnlEstimator, estimatorNone]
    fin_cases i <;> simp
  · refine ⟨euclideanNorm ((mnlEstimator exTwoCols none none (some [0, 1])).gradient fun _ => 0), ?_, ?_⟩
    · simp [gradientNormForReplicates, ensureReplicatesKwarg, bind, Except.bind, attrValues]
    · refine lt_of_le_of_ne (norm_sq _).1 fun h => ?_
      have := (norm_zero _).1 h.symm
      have := congrFun this 0
      rw [hg] at this
      norm_num at this

end Pylogit
