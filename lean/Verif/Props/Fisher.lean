import Verif.Props.Definiteness
import Verif.Props.EstimationWitness

/-!
# C28: the Fisher information is the weighted sum of outer products of the observations' scores

The score of an observation is the vector of partial derivatives of the logarithm of the probability
of its chosen alternative, in the parameters the branch estimates.
-/

set_option linter.unusedSectionVars false

open Finset Matrix Function

namespace Pylogit

open Spec

variable {R O A K S I ι P : Type} [Fintype R] [DecidableEq R] [Fintype O] [DecidableEq O]
  [Fintype K] [DecidableEq K] [Fintype S] [DecidableEq S] [Fintype I] [DecidableEq I]
  [Fintype P] [DecidableEq P]

/-- `F` is the information computed from the scores: entry `(i, j)` is the sum over observations of
the weight of the observation times the product of components `i` and `j` of its score, minus twice
the ridge penalty on the diagonal.  `logProb o` is the log-probability of the choice of `o` as a
function of the parameters. -/
def Spec.OuterProductInfo (F : Matrix P P ℝ) (logProb : O → (P → ℝ) → ℝ) (θ : P → ℝ)
    (ridge : Option ℝ) (w : O → ℝ) : Prop :=
  ∃ score : O → P → ℝ, (∀ o, HasPartials (logProb o) (score o) θ) ∧
    ∀ i j, F i j = ∑ o, w o * (score o i * score o j) - 2 * ridge.getD 0 * (if i = j then 1 else 0)

/-- The weights vector that is one on the rows of `o` and zero elsewhere. -/
private def onlyObs (f : R → O) (o : O) : R → ℝ := fun r => if f r = o then 1 else 0

private lemma onlyObs_obs (f : R → O) (o : O) : ObsWeights f (some (onlyObs f o)) := by
  intro w hw r s hrs
  cases hw
  simp [onlyObs, hrs]

private lemma loglik_onlyObs {M : Matrix R O ℝ} {f : R → O} {choice : R → ℝ}
    {c : O → R} (hc : OneChoice f choice c) (β : K → ℝ) (X : Matrix R K ℝ) (ids : R → ι)
    (rta : Matrix R A ℝ) (T : Transform R A S I ι) (icpt : Option (I → ℝ))
    (shape : Option (S → ℝ)) (o : O) :
    calcLogLikelihood β X ids M rta choice T icpt shape none (some (onlyObs f o)) =
      Real.log (modelProbs β X ids M rta T icpt shape (c o)) := by
  rw [loglik_formula hc, Finset.sum_eq_single o]
  · simp [onlyObs, hc.mem, penalty]
  · intro o' _ hne
    simp [onlyObs, hc.mem, hne]
  · simp

private lemma score_onlyObs (f : R → O) (choice p : R → ℝ) (J : Matrix R P ℝ) (o : O) (i : P) :
    ∑ r, onlyObs f o r * (choice r - p r) * J r i = obsScore f choice p J o i := by
  rw [obsScore, rowsOf, Finset.sum_filter]
  refine Finset.sum_congr rfl fun r _ => ?_
  simp only [onlyObs]
  split_ifs <;> simp

private lemma info_of_scores [Nonempty R] {M : Matrix R O ℝ} {f : R → O} (hM : Indicates M f)
    {choice : R → ℝ} {c : O → R} (hc : OneChoice f choice c) {weights : Option (R → ℝ)}
    (hw : ObsWeights f weights) (hw0 : NonnegWeights weights) (J : Matrix R P ℝ) (p : R → ℝ)
    (ridge : Option ℝ) (logProb : O → (P → ℝ) → ℝ) (θ : P → ℝ)
    (h : ∀ o, HasPartials (logProb o) (obsScore f choice p J o) θ) :
    OuterProductInfo (fisherCore J choice p M ridge weights) logProb θ ridge
      (fun o => (weights.getD fun _ => 1) (c o)) := by
  refine ⟨_, h, fun i j => ?_⟩
  refine fisher_formula hM (fun o => ⟨c o, hc.mem o⟩) hw hw0 J choice p ridge _ (fun r => ?_) i j
  exact obsWeights_default hw _ _ (hc.mem (f r))

/-- **C28**, shape and intercept parameters. -/
theorem fisher_info_both [Nonempty R] {M : Matrix R O ℝ} {f : R → O} (hM : Indicates M f)
    {choice : R → ℝ} {c : O → R} (hc : OneChoice f choice c) {weights : Option (R → ℝ)}
    (hw : ObsWeights f weights) (hw0 : NonnegWeights weights)
    {X : Matrix R K ℝ} {ids : R → ι} {rta : Matrix R A ℝ} {T : Transform R A S I ι}
    {d : Derivs R S I} {s : S → ℝ} {a : I → ℝ} {β : K → ℝ} (ridge : Option ℝ)
    (hT : Rowwise T ids rta (some s) (some a))
    (hd : DerivsCorrect T d (X *ᵥ β) ids rta (some s) (some a))
    (hb : ∀ r, |T (X *ᵥ β) ids rta (some s) (some a) r| < 700) :
    OuterProductInfo
      (fisherBoth d X choice (modelProbs β X ids M rta T (some a) (some s)) M ridge weights)
      (fun o θ => Real.log (modelProbs (fun k => θ (.inr (.inr k))) X ids M rta T
        (some fun i => θ (.inr (.inl i))) (some fun j => θ (.inl j)) (c o)))
      (Sum.elim s (Sum.elim a β)) ridge (fun o => (weights.getD fun _ => 1) (c o)) := by
  refine info_of_scores hM hc hw hw0 _ _ ridge _ _ fun o i => ?_
  have key := gradient_both hM hc (onlyObs_obs f o) none hT hd hb i
  simp only [loglik_onlyObs hc] at key
  rw [← score_onlyObs]
  refine key.congr_deriv ?_
  rcases i with j | i | k <;>
    simp [gradientBoth, ridgeGrad, vecMul, dotProduct, dLLdh, defaultWeights]

/-- **C28**, shape parameters only. -/
theorem fisher_info_shape [Nonempty R] {M : Matrix R O ℝ} {f : R → O} (hM : Indicates M f)
    {choice : R → ℝ} {c : O → R} (hc : OneChoice f choice c) {weights : Option (R → ℝ)}
    (hw : ObsWeights f weights) (hw0 : NonnegWeights weights)
    {X : Matrix R K ℝ} {ids : R → ι} {rta : Matrix R A ℝ} {T : Transform R A S I ι}
    {d : Derivs R S I} {s : S → ℝ} {β : K → ℝ} (ridge : Option ℝ)
    (hT : Rowwise T ids rta (some s) none)
    (hd : DerivsCorrect T d (X *ᵥ β) ids rta (some s) none)
    (hb : ∀ r, |T (X *ᵥ β) ids rta (some s) none r| < 700) :
    OuterProductInfo
      (fisherShape d X choice (modelProbs β X ids M rta T none (some s)) M ridge weights)
      (fun o θ => Real.log (modelProbs (fun k => θ (.inr k)) X ids M rta T
        none (some fun j => θ (.inl j)) (c o)))
      (Sum.elim s β) ridge (fun o => (weights.getD fun _ => 1) (c o)) := by
  refine info_of_scores hM hc hw hw0 _ _ ridge _ _ fun o i => ?_
  have key := gradient_shape hM hc (onlyObs_obs f o) none hT hd hb i
  simp only [loglik_onlyObs hc] at key
  rw [← score_onlyObs]
  refine key.congr_deriv ?_
  rcases i with j | k <;>
    simp [gradientShape, ridgeGrad, vecMul, dotProduct, dLLdh, defaultWeights]

/-- **C28**, intercept parameters only. -/
theorem fisher_info_icpt [Nonempty R] {M : Matrix R O ℝ} {f : R → O} (hM : Indicates M f)
    {choice : R → ℝ} {c : O → R} (hc : OneChoice f choice c) {weights : Option (R → ℝ)}
    (hw : ObsWeights f weights) (hw0 : NonnegWeights weights)
    {X : Matrix R K ℝ} {ids : R → ι} {rta : Matrix R A ℝ} {T : Transform R A S I ι}
    {d : Derivs R S I} {a : I → ℝ} {β : K → ℝ} (ridge : Option ℝ)
    (hT : Rowwise T ids rta none (some a))
    (hd : DerivsCorrect T d (X *ᵥ β) ids rta none (some a))
    (hb : ∀ r, |T (X *ᵥ β) ids rta none (some a) r| < 700) :
    OuterProductInfo
      (fisherIcpt d X choice (modelProbs β X ids M rta T (some a) none) M ridge weights)
      (fun o θ => Real.log (modelProbs (fun k => θ (.inr k)) X ids M rta T
        (some fun i => θ (.inl i)) none (c o)))
      (Sum.elim a β) ridge (fun o => (weights.getD fun _ => 1) (c o)) := by
  refine info_of_scores hM hc hw hw0 _ _ ridge _ _ fun o i => ?_
  have key := gradient_icpt hM hc (onlyObs_obs f o) none hT hd hb i
  simp only [loglik_onlyObs hc] at key
  rw [← score_onlyObs]
  refine key.congr_deriv ?_
  rcases i with j | k <;>
    simp [gradientIcpt, ridgeGrad, vecMul, dotProduct, dLLdh, defaultWeights]

/-- **C28**, coefficients only. -/
theorem fisher_info_none [Nonempty R] {M : Matrix R O ℝ} {f : R → O} (hM : Indicates M f)
    {choice : R → ℝ} {c : O → R} (hc : OneChoice f choice c) {weights : Option (R → ℝ)}
    (hw : ObsWeights f weights) (hw0 : NonnegWeights weights)
    {X : Matrix R K ℝ} {ids : R → ι} {rta : Matrix R A ℝ} {T : Transform R A S I ι}
    {d : Derivs R S I} {β : K → ℝ} (ridge : Option ℝ)
    (hT : Rowwise T ids rta none none)
    (hd : DerivsCorrect T d (X *ᵥ β) ids rta none none)
    (hb : ∀ r, |T (X *ᵥ β) ids rta none none r| < 700) :
    OuterProductInfo
      (fisherNone d X choice (modelProbs β X ids M rta T none none) M ridge weights)
      (fun o θ => Real.log (modelProbs θ X ids M rta T none none (c o)))
      β ridge (fun o => (weights.getD fun _ => 1) (c o)) := by
  refine info_of_scores hM hc hw hw0 _ _ ridge _ _ fun o i => ?_
  have key := gradient_none hM hc (onlyObs_obs f o) none hT hd hb i
  simp only [loglik_onlyObs hc] at key
  rw [← score_onlyObs]
  refine key.congr_deriv ?_
  simp [gradientNone, ridgeGrad, vecMul, dotProduct, dLLdh, defaultWeights]

/-! ### The actual models -/

variable {n : ℕ}

/-- **C28**, MNL. -/
theorem mnl_fisher_info [Nonempty R] {M : Matrix R O ℝ} {f : R → O} (hM : Indicates M f)
    {choice : R → ℝ} {c : O → R} (hc : OneChoice f choice c) {weights : Option (R → ℝ)}
    (hw : ObsWeights f weights) (hw0 : NonnegWeights weights)
    (X : Matrix R K ℝ) (ids : R → ι) (rta : Matrix R A ℝ) (β : K → ℝ) (ridge : Option ℝ)
    (hb : ∀ r, |(X *ᵥ β) r| < 700) :
    OuterProductInfo
      (fisherNone (S := Empty) (I := Empty) mnlDerivs X choice
        (modelProbs (S := Empty) (I := Empty) β X ids M rta mnlTransform none none) M ridge weights)
      (fun o θ => Real.log (modelProbs (S := Empty) (I := Empty) θ X ids M rta mnlTransform none none
        (c o)))
      β ridge (fun o => (weights.getD fun _ => 1) (c o)) :=
  fisher_info_none hM hc hw hw0 ridge (fun _ _ _ h => h) (mnl_derivs_correct _ _ _) hb

/-- **C28**, Scobit with outside intercepts. -/
theorem scobit_fisher_info [Nonempty R] {M : Matrix R O ℝ} {f : R → O} (hM : Indicates M f)
    {choice : R → ℝ} {c : O → R} (hc : OneChoice f choice c) {weights : Option (R → ℝ)}
    (hw : ObsWeights f weights) (hw0 : NonnegWeights weights)
    (X : Matrix R K ℝ) (ids : R → ι) {rta : Matrix R (Fin (n + 1)) ℝ} {alt : R → Fin (n + 1)}
    (hA : Indicates rta alt) (ref : Fin (n + 1)) (s : Fin (n + 1) → ℝ) (a : Fin n → ℝ) (β : K → ℝ)
    (ridge : Option ℝ)
    (hb : ∀ r, |scobitTransform (some ref) (X *ᵥ β) ids rta (some s) (some a) r| < 700) :
    OuterProductInfo
      (fisherBoth (scobitDerivs ref rta s (X *ᵥ β)) X choice
        (modelProbs β X ids M rta (scobitTransform (some ref)) (some a) (some s)) M ridge weights)
      (fun o θ => Real.log (modelProbs (fun k => θ (.inr (.inr k))) X ids M rta
        (scobitTransform (some ref)) (some fun i => θ (.inr (.inl i))) (some fun j => θ (.inl j))
        (c o)))
      (Sum.elim s (Sum.elim a β)) ridge (fun o => (weights.getD fun _ => 1) (c o)) :=
  fisher_info_both hM hc hw hw0 ridge (fun r v v' h => by simp [scobitTransform, h])
    (scobit_derivs_correct ref hA _ _ _ _) hb

/-- **C28**, Uneven without outside intercepts. -/
theorem uneven_fisher_info_no_intercepts [Nonempty R] {M : Matrix R O ℝ} {f : R → O}
    (hM : Indicates M f)
    {choice : R → ℝ} {c : O → R} (hc : OneChoice f choice c) {weights : Option (R → ℝ)}
    (hw : ObsWeights f weights) (hw0 : NonnegWeights weights)
    (X : Matrix R K ℝ) (ids : R → ι) {rta : Matrix R (Fin (n + 1)) ℝ} {alt : R → Fin (n + 1)}
    (hA : Indicates rta alt) (ref : Fin (n + 1)) (s : Fin (n + 1) → ℝ) (β : K → ℝ)
    (ridge : Option ℝ)
    (hb : ∀ r, |unevenTransform (some ref) (X *ᵥ β) ids rta (some s) none r| < 700) :
    OuterProductInfo
      (fisherShape (unevenDerivs ref rta s (X *ᵥ β)) X choice
        (modelProbs β X ids M rta (unevenTransform (some ref)) none (some s)) M ridge weights)
      (fun o θ => Real.log (modelProbs (fun k => θ (.inr k)) X ids M rta
        (unevenTransform (some ref)) none (some fun j => θ (.inl j)) (c o)))
      (Sum.elim s β) ridge (fun o => (weights.getD fun _ => 1) (c o)) :=
  fisher_info_shape hM hc hw hw0 ridge (fun r v v' h => by simp [unevenTransform, h])
    (uneven_derivs_correct ref hA _ _ _ _) hb

/-- The hypotheses of `mnl_fisher_info` are met by one observation with two rows, the first chosen, a
weight of 3 and a ridge penalty; the information is not zero. -/
example :
    fisherNone (S := Empty) (I := Empty) mnlDerivs exTwoCols.design exTwoCols.choice
      (modelProbs (S := Empty) (I := Empty) (fun _ => 0) exTwoCols.design exTwoCols.altIDs
        exTwoCols.rowsToObs exTwoCols.rowsToAlts mnlTransform none none) exTwoCols.rowsToObs
      (some (1 / 4)) (some fun _ => 3) 0 0 = 1 / 4 := by
  have hp : (modelProbs (S := Empty) (I := Empty) (fun _ => 0) exTwoCols.design exTwoCols.altIDs
      exTwoCols.rowsToObs exTwoCols.rowsToAlts mnlTransform none none) = fun _ => 1 / 2 :=
    funext exTwoCols_probs
  rw [hp, fisherNone]
  rw [fisher_formula (f := fun _ => 0) exTwoCols_indicates (fun o => ⟨0, by fin_cases o; rfl⟩)
    (by intro w h; cases h; simp) (by intro w h; cases h; norm_num) _ _ _ _ (fun _ => 3)
    (by intro r; rfl)]
  simp [obsScore, rowsOf, mnlDerivs, exTwoCols]
  norm_num

end Pylogit
