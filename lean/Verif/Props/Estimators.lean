import Verif.Model.Estimators
import Verif.Props.Gradient
import Verif.Props.Estimation
import Verif.Props.Mixed

/-!
# C82: what the optimiser is given

`ObjectiveFor e LL x`: at the parameters `x` the estimation object hands the optimiser minus the
log-likelihood `LL` and, at every parameter that is not constrained, the derivative of that number; at the
constrained parameters it hands over zero.
-/

set_option linter.unusedSectionVars false

open Finset Matrix Function

namespace Pylogit

namespace Spec

variable {R O P : Type}

/-- The optimiser is given `-LL`, its derivatives at the free parameters, and zeros elsewhere. -/
structure ObjectiveFor [DecidableEq P] (e : Estimator P) (LL : (P → ℝ) → ℝ) (x : P → ℝ) : Prop where
  value : (e.negLLAndGrad x).1 = -LL x
  free : ∀ i, i ∉ e.constrainedPos.getD [] →
    HasDerivAt (fun t => -LL (update x i t)) ((e.negLLAndGrad x).2 i) (x i)
  fixed : ∀ i, i ∈ e.constrainedPos.getD [] → (e.negLLAndGrad x).2 i = 0

/-- The weighted, penalised log-likelihood of choices with probabilities `p θ`: observation `o` chose row
`c o`, and rows have weight 1 when no weights are given. -/
noncomputable def penalisedLogLik [Fintype O] [Fintype P] (c : O → R) (weights : Option (R → ℝ))
    (ridge : Option ℝ) (p : (P → ℝ) → R → ℝ) (θ : P → ℝ) : ℝ :=
  ∑ o, (weights.getD fun _ => 1) (c o) * Real.log (p θ (c o)) - ridge.getD 0 * ∑ i, θ i ^ 2

end Spec

open Spec

section Generic

variable {P : Type} [DecidableEq P]

theorem objective_of {e : Estimator P} {LL : (P → ℝ) → ℝ} {x : P → ℝ} (hv : ∀ y, e.logLik y = LL y)
    (hg : HasPartials e.logLik (e.gradient x) x) : ObjectiveFor e LL x where
  value := by rw [constrained_gradient_fst, hv]
  free i hi := by
    have h : (e.negLLAndGrad x).2 i = -e.gradient x i := by
      unfold Estimator.negLLAndGrad
      cases hc : e.constrainedPos with
      | none => simp
      | some l =>
        rw [hc] at hi
        simp only [Option.getD_some] at hi
        simp [hi]
    rw [h]
    have := (hg i).neg
    refine this.congr_of_eventuallyEq (Filter.Eventually.of_forall fun t => ?_)
    simp [hv]
  fixed i hi := by
    unfold Estimator.negLLAndGrad
    cases hc : e.constrainedPos with
    | none => simp [hc] at hi
    | some l =>
      rw [hc] at hi
      simp only [Option.getD_some] at hi
      simp [hi]

end Generic

section Logit

variable {R O A K S I ι : Type} [Fintype R] [DecidableEq R] [Fintype O] [DecidableEq O]
  [Fintype K] [DecidableEq K] [Fintype S] [DecidableEq S] [Fintype I] [DecidableEq I]

theorem obsWeights_est {f : R → O} {weights : Option (R → ℝ)} (hw : ObsWeights f weights) :
    ObsWeights f (estWeights weights) := by
  intro w hw1 r s hrs
  cases weights with
  | none => cases hw1; simp [defaultWeights]
  | some w0 => cases hw1; exact hw w0 rfl r s hrs

theorem estWeights_getD (weights : Option (R → ℝ)) :
    ((estWeights weights).getD fun _ => 1) = weights.getD fun _ => 1 := by
  cases weights <;> rfl

variable {f : R → O} {c : O → R} {d : FitData R O A K ι} {ridge : Option ℝ} {weights : Option (R → ℝ)}

theorem estimatorNone_objective (hM : Indicates d.rowsToObs f) (hc : OneChoice f d.choice c)
    (hw : ObsWeights f weights) {T : Transform R A S I ι} {derivs : (R → ℝ) → Derivs R S I}
    {con : Option (List K)} (x : K → ℝ) (hT : Rowwise T d.altIDs d.rowsToAlts none none)
    (hd : DerivsCorrect T (derivs (d.design *ᵥ x)) (d.design *ᵥ x) d.altIDs d.rowsToAlts none none)
    (hb : ∀ r, |T (d.design *ᵥ x) d.altIDs d.rowsToAlts none none r| < 700) :
    ObjectiveFor (estimatorNone T derivs d ridge weights con)
      (penalisedLogLik c weights ridge fun θ => clippedLogit f
        (T (d.design *ᵥ θ) d.altIDs d.rowsToAlts none none)) x := by
  refine objective_of (fun y => ?_) (gradient_none hM hc (obsWeights_est hw) ridge hT hd hb)
  simp only [estimatorNone]
  rw [loglik_formula hc, penalisedLogLik, estWeights_getD]
  simp only [modelProbs, longProbs_eq_clippedLogit hM]
  simp [penalty]

theorem estimatorIcpt_objective (hM : Indicates d.rowsToObs f) (hc : OneChoice f d.choice c)
    (hw : ObsWeights f weights) {T : Transform R A S I ι} {derivs : (R → ℝ) → Derivs R S I}
    {con : Option (List (I ⊕ K))} (a : I → ℝ) (β : K → ℝ)
    (hT : Rowwise T d.altIDs d.rowsToAlts none (some a))
    (hd : DerivsCorrect T (derivs (d.design *ᵥ β)) (d.design *ᵥ β) d.altIDs d.rowsToAlts none (some a))
    (hb : ∀ r, |T (d.design *ᵥ β) d.altIDs d.rowsToAlts none (some a) r| < 700) :
    ObjectiveFor (estimatorIcpt T derivs d ridge weights con)
      (penalisedLogLik c weights ridge fun θ => clippedLogit f
        (T (d.design *ᵥ fun k => θ (.inr k)) d.altIDs d.rowsToAlts none (some fun i => θ (.inl i))))
      (Sum.elim a β) := by
  refine objective_of (fun y => ?_) (gradient_icpt hM hc (obsWeights_est hw) ridge hT hd hb)
  simp only [estimatorIcpt]
  rw [loglik_formula hc, penalisedLogLik, estWeights_getD]
  simp only [modelProbs, longProbs_eq_clippedLogit hM]
  simp [penalty, Fintype.sum_sum_type]

theorem estimatorShape_objective (hM : Indicates d.rowsToObs f) (hc : OneChoice f d.choice c)
    (hw : ObsWeights f weights) {T : Transform R A S I ι} {derivs : (S → ℝ) → (R → ℝ) → Derivs R S I}
    {con : Option (List (S ⊕ K))} (s : S → ℝ) (β : K → ℝ)
    (hT : Rowwise T d.altIDs d.rowsToAlts (some s) none)
    (hd : DerivsCorrect T (derivs s (d.design *ᵥ β)) (d.design *ᵥ β) d.altIDs d.rowsToAlts (some s) none)
    (hb : ∀ r, |T (d.design *ᵥ β) d.altIDs d.rowsToAlts (some s) none r| < 700) :
    ObjectiveFor (estimatorShape T derivs d ridge weights con)
      (penalisedLogLik c weights ridge fun θ => clippedLogit f
        (T (d.design *ᵥ fun k => θ (.inr k)) d.altIDs d.rowsToAlts (some fun i => θ (.inl i)) none))
      (Sum.elim s β) := by
  refine objective_of (fun y => ?_) (gradient_shape hM hc (obsWeights_est hw) ridge hT hd hb)
  simp only [estimatorShape]
  rw [loglik_formula hc, penalisedLogLik, estWeights_getD]
  simp only [modelProbs, longProbs_eq_clippedLogit hM]
  simp [penalty, Fintype.sum_sum_type]

theorem estimatorBoth_objective (hM : Indicates d.rowsToObs f) (hc : OneChoice f d.choice c)
    (hw : ObsWeights f weights) {T : Transform R A S I ι} {derivs : (S → ℝ) → (R → ℝ) → Derivs R S I}
    {con : Option (List (S ⊕ (I ⊕ K)))} (s : S → ℝ) (a : I → ℝ) (β : K → ℝ)
    (hT : Rowwise T d.altIDs d.rowsToAlts (some s) (some a))
    (hd : DerivsCorrect T (derivs s (d.design *ᵥ β)) (d.design *ᵥ β) d.altIDs d.rowsToAlts (some s)
      (some a))
    (hb : ∀ r, |T (d.design *ᵥ β) d.altIDs d.rowsToAlts (some s) (some a) r| < 700) :
    ObjectiveFor (estimatorBoth T derivs d ridge weights con)
      (penalisedLogLik c weights ridge fun θ => clippedLogit f
        (T (d.design *ᵥ fun k => θ (.inr (.inr k))) d.altIDs d.rowsToAlts (some fun i => θ (.inl i))
          (some fun i => θ (.inr (.inl i)))))
      (Sum.elim s (Sum.elim a β)) := by
  refine objective_of (fun y => ?_) (gradient_both hM hc (obsWeights_est hw) ridge hT hd hb)
  simp only [estimatorBoth]
  rw [loglik_formula hc, penalisedLogLik, estWeights_getD]
  simp only [modelProbs, longProbs_eq_clippedLogit hM]
  simp [penalty, Fintype.sum_sum_type, add_assoc]

end Logit

/-! ## The utilities, as each model documents them -/

namespace Spec

variable {R : Type} {n : ℕ}

/-- One number per alternative: zero for the reference alternative, the given ones, in order, for the
others. -/
def withReference (ref : Fin (n + 1)) (a : Fin n → ℝ) : Fin (n + 1) → ℝ :=
  Fin.insertNth (α := fun _ => ℝ) ref 0 a

/-- Clog-log: `log (exp (exp v) - 1)`, replaced by `exp v` from 3.7 on. -/
noncomputable def clogUtility (icpt : Fin (n + 1) → ℝ) (alt : R → Fin (n + 1)) (v : R → ℝ) (r : R) : ℝ :=
  icpt (alt r) + if 3.7 ≤ v r then Real.exp (v r) else Real.log (Real.exp (Real.exp (v r)) - 1)

/-- Scobit. -/
noncomputable def scobitUtility (icpt shape : Fin (n + 1) → ℝ) (alt : R → Fin (n + 1)) (v : R → ℝ)
    (r : R) : ℝ :=
  icpt (alt r) - Real.log ((1 + Real.exp (-v r)) ^ Real.exp (shape (alt r)) - 1)

/-- Uneven logit. -/
noncomputable def unevenUtility (icpt shape : Fin (n + 1) → ℝ) (alt : R → Fin (n + 1)) (v : R → ℝ)
    (r : R) : ℝ :=
  icpt (alt r) + v r + Real.log (1 + Real.exp (-v r)) -
    Real.log (1 + Real.exp (-(Real.exp (shape (alt r)) * v r)))

/-- The natural shapes of the asymmetric model: exponentials as shares of their total. -/
noncomputable def naturalShape (shape : Fin (n + 1) → ℝ) (j : Fin (n + 1)) : ℝ :=
  Real.exp (shape j) / ∑ i, Real.exp (shape i)

/-- Asymmetric logit, for `n + 1` alternatives. -/
noncomputable def asymUtility (icpt shape : Fin (n + 1) → ℝ) (alt : R → Fin (n + 1)) (v : R → ℝ)
    (r : R) : ℝ :=
  let c := naturalShape shape (alt r)
  icpt (alt r) + (Real.log c - v r * if 0 ≤ v r then Real.log c else Real.log ((1 - c) / n))

end Spec

section Utilities

variable {R O K ι : Type} [Fintype R] [DecidableEq R] {n : ℕ}
  {rta : Matrix R (Fin (n + 1)) ℝ} {alt : R → Fin (n + 1)}

private lemma mulVec_of (hA : Indicates rta alt) (x : Fin (n + 1) → ℝ) (r : R) :
    (rta *ᵥ x) r = x (alt r) := by
  simp [mulVec, dotProduct, hA r]

theorem clogTransform_eq (hA : Indicates rta alt) (ref : Fin (n + 1)) (v : R → ℝ) (ids : R → ι)
    (a : Fin n → ℝ) : clogTransform (S := Empty) (some ref) v ids rta none (some a) =
      clogUtility (withReference ref a) alt v := by
  funext r
  simp only [clogTransform, mulVec_of hA, allIntercepts, clogUtility, withReference]
  rw [add_comm]
  congr 1
  split_ifs with h
  · exact clogH_high h
  · exact clogH_low (not_le.1 h)

theorem clogTransform_eq_plain (hA : Indicates rta alt) (ref : Fin (n + 1)) (v : R → ℝ) (ids : R → ι) :
    clogTransform (S := Empty) (some ref) v ids rta none none = clogUtility (fun _ => 0) alt v := by
  funext r
  simp only [clogTransform, mulVec_of hA, allIntercepts, clogUtility]
  rw [add_comm]
  congr 1
  split_ifs with h
  · exact clogH_high h
  · exact clogH_low (not_le.1 h)

theorem scobitTransform_eq (hA : Indicates rta alt) (ref : Fin (n + 1)) (v : R → ℝ) (ids : R → ι)
    (s : Fin (n + 1) → ℝ) (a : Fin n → ℝ) :
    scobitTransform (some ref) v ids rta (some s) (some a) =
      scobitUtility (withReference ref a) s alt v := by
  funext r
  simp only [scobitTransform, mulVec_of hA, allIntercepts, scobitUtility, scobitH, withReference,
    neg_one_mul]
  ring

theorem scobitTransform_eq_plain (hA : Indicates rta alt) (ref : Fin (n + 1)) (v : R → ℝ) (ids : R → ι)
    (s : Fin (n + 1) → ℝ) :
    scobitTransform (some ref) v ids rta (some s) none = scobitUtility (fun _ => 0) s alt v := by
  funext r
  simp only [scobitTransform, mulVec_of hA, allIntercepts, scobitUtility, scobitH, neg_one_mul]
  ring

theorem unevenTransform_eq (hA : Indicates rta alt) (ref : Fin (n + 1)) (v : R → ℝ) (ids : R → ι)
    (s : Fin (n + 1) → ℝ) (a : Fin n → ℝ) :
    unevenTransform (some ref) v ids rta (some s) (some a) =
      unevenUtility (withReference ref a) s alt v := by
  funext r
  simp only [unevenTransform, mulVec_of hA, allIntercepts, unevenUtility, unevenH, withReference,
    neg_one_mul, neg_mul]
  ring_nf

theorem unevenTransform_eq_plain (hA : Indicates rta alt) (ref : Fin (n + 1)) (v : R → ℝ) (ids : R → ι)
    (s : Fin (n + 1) → ℝ) :
    unevenTransform (some ref) v ids rta (some s) none = unevenUtility (fun _ => 0) s alt v := by
  funext r
  simp only [unevenTransform, mulVec_of hA, allIntercepts, unevenUtility, unevenH, neg_one_mul, neg_mul]
  ring_nf

theorem naturalShape_eq (sref : Fin (n + 1)) (s : Fin n → ℝ) (j : Fin (n + 1)) :
    convertEtaToC sref s j = naturalShape (withReference sref s) j := by
  have hsum : ∑ i, Real.exp (withReference sref s i) = (∑ i, Real.exp (s i)) + 1 := by
    rw [Fin.sum_univ_succAbove _ sref]
    simp [withReference, add_comm]
  rw [naturalShape, hsum]
  rcases Fin.eq_self_or_eq_succAbove sref j with rfl | ⟨i, rfl⟩
  · rw [convertEtaToC_ref]; simp [withReference]
  · rw [convertEtaToC_succAbove]; simp [withReference]

theorem asymTransform_eq (hA : Indicates rta alt) (hn : 0 < n) (sref ref : Fin (n + 1)) (v : R → ℝ)
    (ids : R → ι) (s : Fin n → ℝ) (a : Fin n → ℝ) :
    asymTransform sref (some ref) v ids rta (some s) (some a) =
      asymUtility (withReference ref a) (withReference sref s) alt v := by
  funext r
  simp only [asymTransform, mulVec_of hA, allIntercepts, asymUtility]
  rw [asymH_eq (by omega) (convertEtaToC_pos sref s _) (convertEtaToC_lt_one sref s hn _),
    naturalShape_eq, add_comm]
  simp [withReference]

theorem asymTransform_eq_plain (hA : Indicates rta alt) (hn : 0 < n) (sref ref : Fin (n + 1)) (v : R → ℝ)
    (ids : R → ι) (s : Fin n → ℝ) :
    asymTransform sref (some ref) v ids rta (some s) none =
      asymUtility (fun _ => 0) (withReference sref s) alt v := by
  funext r
  simp only [asymTransform, mulVec_of hA, allIntercepts, asymUtility]
  rw [asymH_eq (by omega) (convertEtaToC_pos sref s _) (convertEtaToC_lt_one sref s hn _),
    naturalShape_eq, add_comm]
  simp

end Utilities

/-! ## C82 -/

section Models

variable {R O A K ι : Type} [Fintype R] [DecidableEq R] [Fintype O] [DecidableEq O] [Fintype K]
  [DecidableEq K] {n : ℕ} {f : R → O} {c : O → R} {ridge : Option ℝ} {weights : Option (R → ℝ)}

/-- **C82**, multinomial logit: the log-likelihood of the logit probabilities, with its exact derivatives,
while the utilities are inside the clipping range. -/
theorem mnl_objective {d : FitData R O A K ι} (hM : Indicates d.rowsToObs f) (hc : OneChoice f d.choice c)
    (hw : ObsWeights f weights) (con : Option (List K)) (x : K → ℝ)
    (hb : ∀ r, |(d.design *ᵥ x) r| < 700) :
    ObjectiveFor (mnlEstimator d ridge weights con)
      (penalisedLogLik c weights ridge fun θ => clippedLogit f (d.design *ᵥ θ)) x :=
  estimatorNone_objective hM hc hw x (fun _ _ _ h => h) (mnl_derivs_correct _ _ _) hb

variable {d : FitData R O (Fin (n + 1)) K ι} {alt : R → Fin (n + 1)}

/-- **C82**, Scobit with outside intercepts.  Parameters: shapes, intercepts, coefficients. -/
theorem scobit_objective (hM : Indicates d.rowsToObs f) (hA : Indicates d.rowsToAlts alt)
    (hc : OneChoice f d.choice c) (hw : ObsWeights f weights) (ref : Fin (n + 1))
    (con : Option (List (Fin (n + 1) ⊕ (Fin n ⊕ K)))) (s : Fin (n + 1) → ℝ) (a : Fin n → ℝ) (β : K → ℝ)
    (hb : ∀ r, |scobitUtility (withReference ref a) s alt (d.design *ᵥ β) r| < 700) :
    ObjectiveFor (scobitEstimator ref d ridge weights con)
      (penalisedLogLik c weights ridge fun θ => clippedLogit f (scobitUtility
        (withReference ref fun i => θ (.inr (.inl i))) (fun j => θ (.inl j)) alt
        (d.design *ᵥ fun k => θ (.inr (.inr k)))))
      (Sum.elim s (Sum.elim a β)) := by
  simp only [← scobitTransform_eq hA ref _ d.altIDs] at hb ⊢
  exact estimatorBoth_objective hM hc hw s a β (fun r v v' h => by simp [scobitTransform, h])
    (scobit_derivs_correct ref hA _ _ _ _) hb

/-- **C82**, Scobit without outside intercepts.  Parameters: shapes, coefficients. -/
theorem scobit_objective_plain (hM : Indicates d.rowsToObs f) (hA : Indicates d.rowsToAlts alt)
    (hc : OneChoice f d.choice c) (hw : ObsWeights f weights) (ref : Fin (n + 1))
    (con : Option (List (Fin (n + 1) ⊕ K))) (s : Fin (n + 1) → ℝ) (β : K → ℝ)
    (hb : ∀ r, |scobitUtility (fun _ => 0) s alt (d.design *ᵥ β) r| < 700) :
    ObjectiveFor (scobitEstimatorPlain ref d ridge weights con)
      (penalisedLogLik c weights ridge fun θ => clippedLogit f (scobitUtility
        (fun _ => 0) (fun j => θ (.inl j)) alt (d.design *ᵥ fun k => θ (.inr k))))
      (Sum.elim s β) := by
  simp only [← scobitTransform_eq_plain hA ref _ d.altIDs] at hb ⊢
  exact estimatorShape_objective hM hc hw s β (fun r v v' h => by simp [scobitTransform, h])
    (scobit_derivs_correct ref hA _ _ _ _) hb

/-- **C82**, uneven logit with outside intercepts.  Parameters: shapes, intercepts, coefficients. -/
theorem uneven_objective (hM : Indicates d.rowsToObs f) (hA : Indicates d.rowsToAlts alt)
    (hc : OneChoice f d.choice c) (hw : ObsWeights f weights) (ref : Fin (n + 1))
    (con : Option (List (Fin (n + 1) ⊕ (Fin n ⊕ K)))) (s : Fin (n + 1) → ℝ) (a : Fin n → ℝ) (β : K → ℝ)
    (hb : ∀ r, |unevenUtility (withReference ref a) s alt (d.design *ᵥ β) r| < 700) :
    ObjectiveFor (unevenEstimator ref d ridge weights con)
      (penalisedLogLik c weights ridge fun θ => clippedLogit f (unevenUtility
        (withReference ref fun i => θ (.inr (.inl i))) (fun j => θ (.inl j)) alt
        (d.design *ᵥ fun k => θ (.inr (.inr k)))))
      (Sum.elim s (Sum.elim a β)) := by
  simp only [← unevenTransform_eq hA ref _ d.altIDs] at hb ⊢
  exact estimatorBoth_objective hM hc hw s a β (fun r v v' h => by simp [unevenTransform, h])
    (uneven_derivs_correct ref hA _ _ _ _) hb

/-- **C82**, uneven logit without outside intercepts.  Parameters: shapes, coefficients. -/
theorem uneven_objective_plain (hM : Indicates d.rowsToObs f) (hA : Indicates d.rowsToAlts alt)
    (hc : OneChoice f d.choice c) (hw : ObsWeights f weights) (ref : Fin (n + 1))
    (con : Option (List (Fin (n + 1) ⊕ K))) (s : Fin (n + 1) → ℝ) (β : K → ℝ)
    (hb : ∀ r, |unevenUtility (fun _ => 0) s alt (d.design *ᵥ β) r| < 700) :
    ObjectiveFor (unevenEstimatorPlain ref d ridge weights con)
      (penalisedLogLik c weights ridge fun θ => clippedLogit f (unevenUtility
        (fun _ => 0) (fun j => θ (.inl j)) alt (d.design *ᵥ fun k => θ (.inr k))))
      (Sum.elim s β) := by
  simp only [← unevenTransform_eq_plain hA ref _ d.altIDs] at hb ⊢
  exact estimatorShape_objective hM hc hw s β (fun r v v' h => by simp [unevenTransform, h])
    (uneven_derivs_correct ref hA _ _ _ _) hb

/-- **C82**, clog-log with outside intercepts (partial: indices below 3.7, where the code switches to an
approximation with another derivative).  Parameters: intercepts, coefficients. -/
theorem clog_objective_partial (hM : Indicates d.rowsToObs f) (hA : Indicates d.rowsToAlts alt)
    (hc : OneChoice f d.choice c) (hw : ObsWeights f weights) (ref : Fin (n + 1))
    (con : Option (List (Fin n ⊕ K))) (a : Fin n → ℝ) (β : K → ℝ) (hv : ∀ r, (d.design *ᵥ β) r < 3.7)
    (hb : ∀ r, |clogUtility (withReference ref a) alt (d.design *ᵥ β) r| < 700) :
    ObjectiveFor (clogEstimator ref d ridge weights con)
      (penalisedLogLik c weights ridge fun θ => clippedLogit f (clogUtility
        (withReference ref fun i => θ (.inl i)) alt (d.design *ᵥ fun k => θ (.inr k))))
      (Sum.elim a β) := by
  simp only [← clogTransform_eq hA ref _ d.altIDs] at hb ⊢
  exact estimatorIcpt_objective hM hc hw a β (fun r v v' h => by simp [clogTransform, h])
    (clog_derivs_correct_partial ref hA _ hv _ _) hb

/-- **C82**, clog-log without outside intercepts (partial, as above). -/
theorem clog_objective_plain_partial (hM : Indicates d.rowsToObs f) (hA : Indicates d.rowsToAlts alt)
    (hc : OneChoice f d.choice c) (hw : ObsWeights f weights) (ref : Fin (n + 1))
    (con : Option (List K)) (β : K → ℝ) (hv : ∀ r, (d.design *ᵥ β) r < 3.7)
    (hb : ∀ r, |clogUtility (fun _ => 0) alt (d.design *ᵥ β) r| < 700) :
    ObjectiveFor (clogEstimatorPlain ref d ridge weights con)
      (penalisedLogLik c weights ridge fun θ => clippedLogit f (clogUtility
        (fun _ => 0) alt (d.design *ᵥ θ))) β := by
  simp only [← clogTransform_eq_plain hA ref _ d.altIDs] at hb ⊢
  exact estimatorNone_objective hM hc hw β (fun r v v' h => by simp [clogTransform, h])
    (clog_derivs_correct_partial ref hA _ hv _ _) hb

/-- **C82**, asymmetric logit with outside intercepts (partial: no index is exactly zero, where the utility
has a kink, except for alternatives with the neutral shape).  Parameters: shapes, intercepts, coefficients. -/
theorem asym_objective_partial (hM : Indicates d.rowsToObs f) (hA : Indicates d.rowsToAlts alt)
    (hc : OneChoice f d.choice c) (hw : ObsWeights f weights) (hn : 0 < n) (sref ref : Fin (n + 1))
    (con : Option (List (Fin n ⊕ (Fin n ⊕ K)))) (s : Fin n → ℝ) (a : Fin n → ℝ) (β : K → ℝ)
    (hv : ∀ r, (d.design *ᵥ β) r ≠ 0 ∨ naturalShape (withReference sref s) (alt r) = 1 / (n + 1))
    (hb : ∀ r, |asymUtility (withReference ref a) (withReference sref s) alt (d.design *ᵥ β) r| < 700) :
    ObjectiveFor (asymEstimator sref ref d ridge weights con)
      (penalisedLogLik c weights ridge fun θ => clippedLogit f (asymUtility
        (withReference ref fun i => θ (.inr (.inl i))) (withReference sref fun j => θ (.inl j)) alt
        (d.design *ᵥ fun k => θ (.inr (.inr k)))))
      (Sum.elim s (Sum.elim a β)) := by
  simp only [← asymTransform_eq hA hn sref ref _ d.altIDs] at hb ⊢
  exact estimatorBoth_objective hM hc hw s a β (fun r v v' h => by simp [asymTransform, h])
    (asym_derivs_correct_partial hn sref ref hA _ _ _ _ fun r => by
      rw [naturalShape_eq]; exact_mod_cast hv r) hb

/-- **C82**, asymmetric logit without outside intercepts (partial, as above). -/
theorem asym_objective_plain_partial (hM : Indicates d.rowsToObs f) (hA : Indicates d.rowsToAlts alt)
    (hc : OneChoice f d.choice c) (hw : ObsWeights f weights) (hn : 0 < n) (sref ref : Fin (n + 1))
    (con : Option (List (Fin n ⊕ K))) (s : Fin n → ℝ) (β : K → ℝ)
    (hv : ∀ r, (d.design *ᵥ β) r ≠ 0 ∨ naturalShape (withReference sref s) (alt r) = 1 / (n + 1))
    (hb : ∀ r, |asymUtility (fun _ => 0) (withReference sref s) alt (d.design *ᵥ β) r| < 700) :
    ObjectiveFor (asymEstimatorPlain sref ref d ridge weights con)
      (penalisedLogLik c weights ridge fun θ => clippedLogit f (asymUtility
        (fun _ => 0) (withReference sref fun j => θ (.inl j)) alt (d.design *ᵥ fun k => θ (.inr k))))
      (Sum.elim s β) := by
  simp only [← asymTransform_eq_plain hA hn sref ref _ d.altIDs] at hb ⊢
  exact estimatorShape_objective hM hc hw s β (fun r v v' h => by simp [asymTransform, h])
    (asym_derivs_correct_partial hn sref ref hA _ _ _ _ fun r => by
      rw [naturalShape_eq]; exact_mod_cast hv r) hb

end Models

end Pylogit
