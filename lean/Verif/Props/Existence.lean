import Mathlib.Topology.Algebra.Order.LiminfLimsup
import Mathlib.Analysis.SpecialFunctions.Pow.Continuity
import Verif.Props.EstimatorsMore
import Verif.Props.Concavity

/-!
# C88: with a positive ridge penalty there is a best parameter vector

`Spec.RidgeAttained LL fixed ρ`: whatever the starting values, some parameter vector that agrees with them at the
constrained positions has a log-likelihood no smaller than that of any other such vector.
-/

set_option linter.unusedSectionVars false

open Finset Matrix Function Filter Topology

namespace Pylogit

namespace Spec

variable {P : Type}

/-- `x` is best among the parameter vectors that agree with the starting values `x₀` at the constrained
positions. -/
def IsBest (LL : (P → ℝ) → ℝ) (fixed : List P) (x₀ x : P → ℝ) : Prop :=
  (∀ i ∈ fixed, x i = x₀ i) ∧ ∀ y, (∀ i ∈ fixed, y i = x₀ i) → LL y ≤ LL x

/-- Whatever the starting values `x₀`, there is a best parameter vector `x`; and every best parameter vector is
bounded by the log-likelihood at the starting values: `ρ ∑ xᵢ² ≤ -LL x₀`. -/
def RidgeAttained [Fintype P] (LL : (P → ℝ) → ℝ) (fixed : List P) (ρ : ℝ) : Prop :=
  ∀ x₀, (∃ x, IsBest LL fixed x₀ x) ∧ ∀ x, IsBest LL fixed x₀ x → ρ * ∑ i, x i ^ 2 ≤ -LL x₀

end Spec

open Spec

section General

variable {P : Type} [Fintype P]

theorem norm_sq_le_sum (x : P → ℝ) : ‖x‖ ^ 2 ≤ ∑ i, x i ^ 2 := by
  have h0 : 0 ≤ ∑ i, x i ^ 2 := Finset.sum_nonneg fun i _ => sq_nonneg _
  have h : ‖x‖ ≤ Real.sqrt (∑ i, x i ^ 2) := by
    refine (pi_norm_le_iff_of_nonneg (Real.sqrt_nonneg _)).2 fun i => ?_
    rw [Real.norm_eq_abs]
    refine Real.abs_le_sqrt ?_
    exact Finset.single_le_sum (f := fun i => x i ^ 2) (fun i _ => sq_nonneg _) (mem_univ i)
  calc ‖x‖ ^ 2 ≤ Real.sqrt (∑ i, x i ^ 2) ^ 2 := by gcongr
    _ = _ := Real.sq_sqrt h0

/-- A continuous function below `-ρ ∑ xᵢ²` attains its maximum, whatever coordinates are fixed. -/
theorem ridgeAttained_of_continuous {F : (P → ℝ) → ℝ} (hF : Continuous F) {ρ : ℝ} (hρ : 0 < ρ)
    (hb : ∀ x, F x ≤ -(ρ * ∑ i, x i ^ 2)) (fixed : List P) : RidgeAttained F fixed ρ := by
  intro x₀
  refine ⟨?_, fun x hx => by linarith [hx.2 x₀ fun _ _ => rfl, hb x]⟩
  have hle : ∀ x, F x ≤ -(ρ * ‖x‖ ^ 2) := fun x => by
    have := mul_le_mul_of_nonneg_left (norm_sq_le_sum x) hρ.le
    linarith [hb x]
  have hlim : Tendsto F (cocompact (P → ℝ)) atBot := by
    refine tendsto_atBot_mono hle ?_
    refine tendsto_neg_atTop_atBot.comp ?_
    exact Tendsto.const_mul_atTop hρ
      ((tendsto_pow_atTop two_ne_zero).comp tendsto_norm_cocompact_atTop)
  have hclosed : IsClosed {x : P → ℝ | ∀ i ∈ fixed, x i = x₀ i} := by
    have : {x : P → ℝ | ∀ i ∈ fixed, x i = x₀ i} = ⋂ i ∈ fixed, {x | x i = x₀ i} := by
      ext x; simp
    rw [this]
    exact isClosed_biInter fun i _ => isClosed_eq (continuous_apply i) continuous_const
  obtain ⟨x, hx, hmax⟩ := hF.continuousOn.exists_isMaxOn' hclosed (x₀ := x₀) (fun _ _ => rfl)
    ((hlim.eventually (eventually_le_atBot (F x₀))).filter_mono inf_le_left)
  exact ⟨x, hx, fun y hy => hmax hy⟩

end General

theorem continuous_clip : Continuous clipExponent := by
  have : clipExponent = fun h => max (-700) (min 700 h) := by
    funext h
    unfold clipExponent maxExponentVal minExponentVal
    split_ifs with h1 h2
    · rw [min_eq_left h1.le, max_eq_right (by norm_num)]
    · rw [min_eq_right (by linarith), max_eq_left h2.le]
    · rw [min_eq_right (by linarith), max_eq_right (by linarith)]
  rw [this]; fun_prop

variable {R O A K ι : Type} [Fintype R] [DecidableEq R] [Fintype O] [DecidableEq O]
  [Fintype K] [DecidableEq K] {n : ℕ}

theorem continuous_log_longProbs {T : Type} [TopologicalSpace T] {M : Matrix R O ℝ} {f : R → O}
    (hM : Indicates M f) {h : T → R → ℝ} (hh : ∀ r, Continuous fun t => h t r) (r : R) :
    Continuous fun t => Real.log (longProbs M (h t) r) := by
  simp only [log_longProbs hM]
  have he : ∀ s, Continuous fun t => longExponentials (h t) s := fun s =>
    Real.continuous_exp.comp (continuous_clip.comp (hh s))
  refine (continuous_clip.comp (hh r)).sub (Continuous.log ?_ fun t => (denom_pos f (h t) r).ne')
  exact continuous_finsetSum _ fun s _ => he s

theorem continuous_mulVec_of {T : Type} [TopologicalSpace T] (X : Matrix R K ℝ) {b : T → K → ℝ}
    (hb : ∀ k, Continuous fun t => b t k) (r : R) : Continuous fun t => (X *ᵥ b t) r := by
  simp only [mulVec, dotProduct]
  exact continuous_finsetSum _ fun k _ => continuous_const.mul (hb k)

theorem loglik_sum_nonpos {M : Matrix R O ℝ} {f : R → O} (hM : Indicates M f) {choice w : R → ℝ}
    (hc : ∀ r, 0 ≤ choice r) (hw : ∀ r, 0 ≤ w r) (h : R → ℝ) :
    ∑ r, choice r * (w r * Real.log (longProbs M h r)) ≤ 0 :=
  Finset.sum_nonpos fun r _ => mul_nonpos_of_nonneg_of_nonpos (hc r)
    (mul_nonpos_of_nonneg_of_nonpos (hw r)
      (Real.log_nonpos (longProbs_pos hM h r).le (longProbs_le_one hM h r)))

theorem continuous_loglik_sum {T : Type} [TopologicalSpace T] {M : Matrix R O ℝ} {f : R → O}
    (hM : Indicates M f) {h : T → R → ℝ} (hh : ∀ r, Continuous fun t => h t r) (choice w : R → ℝ) :
    Continuous fun t => ∑ r, choice r * (w r * Real.log (longProbs M (h t) r)) :=
  continuous_finsetSum _ fun r _ =>
    continuous_const.mul (continuous_const.mul (continuous_log_longProbs hM hh r))

theorem choice_nonneg {f : R → O} {choice : R → ℝ} {c : O → R} (hc : OneChoice f choice c) (r : R) :
    0 ≤ choice r := by
  by_cases h : r = c (f r)
  · rw [h, hc.one]; exact zero_le_one
  · rw [hc.zero r h]

theorem estWeights_nonneg {weights : Option (R → ℝ)} (hw : NonnegWeights weights) (r : R) :
    0 ≤ defaultWeights (estWeights weights) r := nonnegWeights_default hw r

section Estimators

variable {S I : Type} [Fintype S] [Fintype I] [DecidableEq S] [DecidableEq I]
  {d : FitData R O A K ι} {f : R → O} {weights : Option (R → ℝ)} {ρ : ℝ}

theorem estimatorNone_ridge {T : Transform R A S I ι} {derivs : (R → ℝ) → Derivs R S I}
    (hM : Indicates d.rowsToObs f) (hc : ∀ r, 0 ≤ d.choice r) (hw : NonnegWeights weights) (hρ : 0 < ρ)
    (hT : ∀ r, Continuous fun x : K → ℝ => T (d.design *ᵥ x) d.altIDs d.rowsToAlts none none r)
    (constrained : Option (List K)) :
    RidgeAttained (estimatorNone T derivs d (some ρ) weights constrained).logLik (constrained.getD []) ρ := by
  refine ridgeAttained_of_continuous ?_ hρ (fun x => ?_) _
  · simp only [estimatorNone, calcLogLikelihood, modelProbs, sumSqOpt]
    refine (continuous_loglik_sum hM hT _ _).sub ?_
    fun_prop
  · simp only [estimatorNone, calcLogLikelihood, modelProbs, sumSqOpt, zero_add]
    linarith [loglik_sum_nonpos hM hc (estWeights_nonneg hw)
      (T (d.design *ᵥ x) d.altIDs d.rowsToAlts none none)]

theorem estimatorShape_ridge {T : Transform R A S I ι} {derivs : (S → ℝ) → (R → ℝ) → Derivs R S I}
    (hM : Indicates d.rowsToObs f) (hc : ∀ r, 0 ≤ d.choice r) (hw : NonnegWeights weights) (hρ : 0 < ρ)
    (hT : ∀ r, Continuous fun x : S ⊕ K → ℝ => T (d.design *ᵥ fun k => x (.inr k)) d.altIDs d.rowsToAlts
      (some fun i => x (.inl i)) none r)
    (constrained : Option (List (S ⊕ K))) :
    RidgeAttained (estimatorShape T derivs d (some ρ) weights constrained).logLik (constrained.getD []) ρ := by
  refine ridgeAttained_of_continuous ?_ hρ (fun x => ?_) _
  · simp only [estimatorShape, calcLogLikelihood, modelProbs, sumSqOpt]
    refine (continuous_loglik_sum hM hT _ _).sub ?_
    fun_prop
  · simp only [estimatorShape, calcLogLikelihood, modelProbs, sumSqOpt, Fintype.sum_sum_type]
    linarith [loglik_sum_nonpos hM hc (estWeights_nonneg hw)
      (T (d.design *ᵥ fun k => x (.inr k)) d.altIDs d.rowsToAlts (some fun i => x (.inl i)) none)]

theorem estimatorBoth_ridge {T : Transform R A S I ι} {derivs : (S → ℝ) → (R → ℝ) → Derivs R S I}
    (hM : Indicates d.rowsToObs f) (hc : ∀ r, 0 ≤ d.choice r) (hw : NonnegWeights weights) (hρ : 0 < ρ)
    (hT : ∀ r, Continuous fun x : S ⊕ (I ⊕ K) → ℝ => T (d.design *ᵥ fun k => x (.inr (.inr k))) d.altIDs
      d.rowsToAlts (some fun i => x (.inl i)) (some fun i => x (.inr (.inl i))) r)
    (constrained : Option (List (S ⊕ (I ⊕ K)))) :
    RidgeAttained (estimatorBoth T derivs d (some ρ) weights constrained).logLik (constrained.getD []) ρ := by
  refine ridgeAttained_of_continuous ?_ hρ (fun x => ?_) _
  · simp only [estimatorBoth, calcLogLikelihood, modelProbs, sumSqOpt]
    refine (continuous_loglik_sum hM hT _ _).sub ?_
    fun_prop
  · simp only [estimatorBoth, calcLogLikelihood, modelProbs, sumSqOpt, Fintype.sum_sum_type]
    linarith [loglik_sum_nonpos hM hc (estWeights_nonneg hw)
      (T (d.design *ᵥ fun k => x (.inr (.inr k))) d.altIDs d.rowsToAlts (some fun i => x (.inl i))
        (some fun i => x (.inr (.inl i))))]

end Estimators

/-! ## The models -/

/-- **C88** (MNL). -/
theorem mnl_ridge_attained {d : FitData R O A K ι} {f : R → O} (hM : Indicates d.rowsToObs f)
    {c : O → R} (hc : OneChoice f d.choice c) {weights : Option (R → ℝ)} (hw : NonnegWeights weights)
    {ρ : ℝ} (hρ : 0 < ρ) (constrained : Option (List K)) :
    RidgeAttained (mnlEstimator d (some ρ) weights constrained).logLik (constrained.getD []) ρ := by
  refine estimatorNone_ridge hM (choice_nonneg hc) hw hρ (fun r => ?_) constrained
  exact continuous_mulVec_of d.design (fun k => continuous_apply k) r

theorem continuous_intercepts {T : Type} [TopologicalSpace T] (rta : Matrix R (Fin (n + 1)) ℝ)
    (ref : Fin (n + 1)) {a : T → Fin n → ℝ} (ha : ∀ i, Continuous fun t => a t i) (r : R) :
    Continuous fun t => (rta *ᵥ allIntercepts (some ref) (some (a t))) r := by
  refine continuous_mulVec_of rta (fun j => ?_) r
  simp only [allIntercepts]
  refine Fin.succAboveCases ref ?_ (fun i => ?_) j
  · simpa using continuous_const
  · simpa using ha i

theorem continuous_scobitH {T : Type} [TopologicalSpace T] {c v : T → ℝ} (hc : Continuous c)
    (hv : Continuous v) (hpos : ∀ t, 0 < c t) : Continuous fun t => scobitH (c t) (v t) := by
  have h1 : ∀ t, 1 < 1 + Real.exp (-1 * v t) := fun t => by linarith [Real.exp_pos (-1 * v t)]
  refine (Continuous.log ?_ fun t => ?_).neg
  · refine Continuous.sub (Continuous.rpow (by fun_prop) hc fun t => ?_) continuous_const
    exact Or.inl (by linarith [h1 t])
  · linarith [Real.one_lt_rpow (h1 t) (hpos t)]

theorem continuous_unevenH {T : Type} [TopologicalSpace T] {c v : T → ℝ} (hc : Continuous c)
    (hv : Continuous v) : Continuous fun t => unevenH (c t) (v t) := by
  refine (hv.add (Continuous.log (by fun_prop) fun t => ?_)).sub
    (Continuous.log (by fun_prop) fun t => ?_)
  · linarith [Real.exp_pos (-1 * v t)]
  · linarith [Real.exp_pos (-1 * c t * v t)]

theorem continuous_asymH {T : Type} [TopologicalSpace T] {c v : T → ℝ} (hn : 0 < n) (hc : Continuous c)
    (hv : Continuous v) (h0 : ∀ t, 0 < c t) (h1 : ∀ t, c t < 1) :
    Continuous fun t => asymH (n + 1) (c t) (v t) := by
  have hn' : (0 : ℝ) < ((n + 1 : ℕ) : ℝ) - 1 := by push_cast; simpa using hn
  have e : (fun t => asymH (n + 1) (c t) (v t)) = fun t => Real.log (c t) -
      (max (v t) 0 * Real.log (c t) + min (v t) 0 * Real.log ((1 - c t) / (((n + 1 : ℕ) : ℝ) - 1))) := by
    funext t
    have p1 : (1 - c t) / (((n + 1 : ℕ) : ℝ) - 1) ≠ 0 := (div_pos (by linarith [h1 t]) hn').ne'
    simp only [asymH, logGuard, if_neg (h0 t).ne', if_neg p1]
    split_ifs with hv0
    · rw [max_eq_left hv0, min_eq_right hv0]; ring
    · rw [max_eq_right (by linarith), min_eq_left (by linarith)]; ring
  rw [e]
  have l1 : Continuous fun t => Real.log (c t) := hc.log fun t => (h0 t).ne'
  have l2 : Continuous fun t => Real.log ((1 - c t) / (((n + 1 : ℕ) : ℝ) - 1)) :=
    Continuous.log (by fun_prop) fun t => (div_pos (by linarith [h1 t]) hn').ne'
  fun_prop

section Shapes

variable {d : FitData R O (Fin (n + 1)) K ι} {f : R → O} {g : R → Fin (n + 1)} {c : O → R}
  {weights : Option (R → ℝ)} {ρ : ℝ}

theorem continuous_natShapes {T : Type} [TopologicalSpace T] {rta : Matrix R (Fin (n + 1)) ℝ}
    {s : T → Fin (n + 1) → ℝ} (hs : ∀ i, Continuous fun t => s t i) (r : R) :
    Continuous fun t => (rta *ᵥ fun j => Real.exp (s t j)) r :=
  continuous_mulVec_of rta (fun j => Real.continuous_exp.comp (hs j)) r

theorem natShapes_pos {rta : Matrix R (Fin (n + 1)) ℝ} (hA : Indicates rta g) (s : Fin (n + 1) → ℝ)
    (r : R) : 0 < (rta *ᵥ fun j => Real.exp (s j)) r := by
  rw [mulVec_indicates hA]; exact Real.exp_pos _

theorem continuous_etaToC {T : Type} [TopologicalSpace T] (ref : Fin (n + 1)) {e : T → Fin n → ℝ}
    (he : ∀ i, Continuous fun t => e t i) (j : Fin (n + 1)) :
    Continuous fun t => convertEtaToC ref (e t) j := by
  have hsum : Continuous fun t => (∑ i, Real.exp (e t i)) + 1 :=
    (continuous_finsetSum _ fun i _ => Real.continuous_exp.comp (he i)).add continuous_const
  refine Fin.succAboveCases ref ?_ (fun i => ?_) j
  · simp only [convertEtaToC_ref]
    exact continuous_const.div hsum fun t => (eta_denom_pos (e t)).ne'
  · simp only [convertEtaToC_succAbove]
    exact (Real.continuous_exp.comp (he i)).div hsum fun t => (eta_denom_pos (e t)).ne'

/-- **C88** (scobit, outside intercepts). -/
theorem scobit_ridge_attained (hM : Indicates d.rowsToObs f) (hA : Indicates d.rowsToAlts g)
    (hc : OneChoice f d.choice c) (hw : NonnegWeights weights) (hρ : 0 < ρ) (ref : Fin (n + 1))
    (constrained : Option (List ((Fin (n + 1)) ⊕ (Fin n ⊕ K)))) :
    RidgeAttained (scobitEstimator ref d (some ρ) weights constrained).logLik (constrained.getD []) ρ := by
  refine estimatorBoth_ridge hM (choice_nonneg hc) hw hρ (fun r => ?_) constrained
  simp only [scobitTransform]
  exact (continuous_intercepts d.rowsToAlts ref (fun i => continuous_apply _) r).add
    (continuous_scobitH (continuous_natShapes (fun i => continuous_apply _) r)
      (continuous_mulVec_of d.design (fun k => continuous_apply _) r) (fun t => natShapes_pos hA _ r))

/-- **C88** (scobit, no outside intercepts). -/
theorem scobit_plain_ridge_attained (hM : Indicates d.rowsToObs f) (hA : Indicates d.rowsToAlts g)
    (hc : OneChoice f d.choice c) (hw : NonnegWeights weights) (hρ : 0 < ρ) (ref : Fin (n + 1))
    (constrained : Option (List ((Fin (n + 1)) ⊕ K))) :
    RidgeAttained (scobitEstimatorPlain ref d (some ρ) weights constrained).logLik (constrained.getD []) ρ := by
  refine estimatorShape_ridge hM (choice_nonneg hc) hw hρ (fun r => ?_) constrained
  simp only [scobitTransform]
  exact (continuous_mulVec_of d.rowsToAlts (fun j => by simp only [allIntercepts]; fun_prop) r).add
    (continuous_scobitH (continuous_natShapes (fun i => continuous_apply _) r)
      (continuous_mulVec_of d.design (fun k => continuous_apply _) r) (fun t => natShapes_pos hA _ r))

/-- **C88** (uneven, outside intercepts). -/
theorem uneven_ridge_attained (hM : Indicates d.rowsToObs f)
    (hc : OneChoice f d.choice c) (hw : NonnegWeights weights) (hρ : 0 < ρ) (ref : Fin (n + 1))
    (constrained : Option (List ((Fin (n + 1)) ⊕ (Fin n ⊕ K)))) :
    RidgeAttained (unevenEstimator ref d (some ρ) weights constrained).logLik (constrained.getD []) ρ := by
  refine estimatorBoth_ridge hM (choice_nonneg hc) hw hρ (fun r => ?_) constrained
  simp only [unevenTransform]
  exact (continuous_unevenH (continuous_natShapes (fun i => continuous_apply _) r)
      (continuous_mulVec_of d.design (fun k => continuous_apply _) r)).add
    (continuous_intercepts d.rowsToAlts ref (fun i => continuous_apply _) r)

/-- **C88** (uneven, no outside intercepts). -/
theorem uneven_plain_ridge_attained (hM : Indicates d.rowsToObs f)
    (hc : OneChoice f d.choice c) (hw : NonnegWeights weights) (hρ : 0 < ρ) (ref : Fin (n + 1))
    (constrained : Option (List ((Fin (n + 1)) ⊕ K))) :
    RidgeAttained (unevenEstimatorPlain ref d (some ρ) weights constrained).logLik (constrained.getD []) ρ := by
  refine estimatorShape_ridge hM (choice_nonneg hc) hw hρ (fun r => ?_) constrained
  simp only [unevenTransform]
  exact (continuous_unevenH (continuous_natShapes (fun i => continuous_apply _) r)
      (continuous_mulVec_of d.design (fun k => continuous_apply _) r)).add
    (continuous_mulVec_of d.rowsToAlts (fun j => by simp only [allIntercepts]; fun_prop) r)

/-- **C88** (asymmetric, outside intercepts). -/
theorem asym_ridge_attained (hM : Indicates d.rowsToObs f) (hA : Indicates d.rowsToAlts g)
    (hc : OneChoice f d.choice c) (hw : NonnegWeights weights) (hρ : 0 < ρ) (hn : 0 < n) (sref ref : Fin (n + 1))
    (constrained : Option (List ((Fin n) ⊕ (Fin n ⊕ K)))) :
    RidgeAttained (asymEstimator sref ref d (some ρ) weights constrained).logLik (constrained.getD []) ρ := by
  refine estimatorBoth_ridge hM (choice_nonneg hc) hw hρ (fun r => ?_) constrained
  simp only [asymTransform]
  exact (continuous_asymH hn
      (continuous_mulVec_of d.rowsToAlts (fun j => continuous_etaToC sref (fun i => continuous_apply _) j) r)
      (continuous_mulVec_of d.design (fun k => continuous_apply _) r)
      (fun t => by rw [mulVec_indicates hA]; exact convertEtaToC_pos _ _ _)
      (fun t => by rw [mulVec_indicates hA]; exact convertEtaToC_lt_one _ _ hn _)).add
    (continuous_intercepts d.rowsToAlts ref (fun i => continuous_apply _) r)

/-- **C88** (asymmetric, no outside intercepts). -/
theorem asym_plain_ridge_attained (hM : Indicates d.rowsToObs f) (hA : Indicates d.rowsToAlts g)
    (hc : OneChoice f d.choice c) (hw : NonnegWeights weights) (hρ : 0 < ρ) (hn : 0 < n) (sref ref : Fin (n + 1))
    (constrained : Option (List ((Fin n) ⊕ K))) :
    RidgeAttained (asymEstimatorPlain sref ref d (some ρ) weights constrained).logLik (constrained.getD []) ρ := by
  refine estimatorShape_ridge hM (choice_nonneg hc) hw hρ (fun r => ?_) constrained
  simp only [asymTransform]
  exact (continuous_asymH hn
      (continuous_mulVec_of d.rowsToAlts (fun j => continuous_etaToC sref (fun i => continuous_apply _) j) r)
      (continuous_mulVec_of d.design (fun k => continuous_apply _) r)
      (fun t => by rw [mulVec_indicates hA]; exact convertEtaToC_pos _ _ _)
      (fun t => by rw [mulVec_indicates hA]; exact convertEtaToC_lt_one _ _ hn _)).add
    (continuous_mulVec_of d.rowsToAlts (fun j => by simp only [allIntercepts]; fun_prop) r)

end Shapes

section Mixed

variable {M D P : Type} [Fintype M] [DecidableEq M] [Fintype D] [Fintype P] [DecidableEq P]

/-- **C88** (mixed logit). -/
theorem mixed_ridge_attained [Nonempty R] [Nonempty D] {B : Matrix R O ℝ} {f : R → O} (hB : Indicates B f)
    {C : Matrix R M ℝ} {g : R → M} (hC : Indicates C g) {choice : R → ℝ} {c : O → R}
    (hc : OneChoice f choice c) {weights : Option (R → ℝ)} (hw : NonnegWeights weights) (X : R → D → P → ℝ)
    {ρ : ℝ} (hρ : 0 < ρ) (constrained : Option (List P)) :
    RidgeAttained (mixedEstimator X B C choice (some ρ) weights constrained).logLik (constrained.getD []) ρ := by
  have hy := oneChoice_zeroOne hc
  have hw1 : NonnegWeights (estWeights weights) := by
    intro w e r
    cases weights with
    | none => cases e; simp [defaultWeights]
    | some w0 => cases e; exact hw w0 rfl r
  refine ridgeAttained_of_continuous ?_ hρ (fun x => ?_) _
  · simp only [mixedEstimator, mixedLogLikelihood]
    refine Continuous.sub ?_ (by fun_prop)
    refine continuous_finsetSum _ fun m _ => continuous_const.mul (Continuous.log ?_ fun x => ?_)
    · simp only [sequenceProbs, drawMean]
      refine Continuous.div_const (continuous_finsetSum _ fun d _ => ?_) _
      have e : ∀ x : P → ℝ, expandedSequenceProbs (kernelProbs x X B) choice C m d =
          Real.exp ((Cᵀ *ᵥ fun r => choice r * Real.log (kernelProbs x X B r d)) m) := fun x =>
        if_neg (Real.exp_pos _).ne'
      simp only [e, mulVec, dotProduct, kernelProbs]
      refine Real.continuous_exp.comp (continuous_finsetSum _ fun r _ => ?_)
      refine continuous_const.mul (continuous_const.mul (continuous_log_longProbs hB (fun s => ?_) r))
      fun_prop
    · exact (drawMean_pos fun d => expandedSequenceProbs_pos _ _ _ _ _).ne'
  · have h := mixed_loglik_nonpos (D := D) hB hC hy hw1 x X (ridge := none) (by simp)
    simp only [mixedEstimator, mixedLogLikelihood] at h ⊢
    linarith

end Mixed

/-! ## Uniqueness -/

/-- **C88** (MNL, one estimate). When the starting values are good enough for the penalty to keep the
utilities away from the clipping bound, there is exactly one best coefficient vector, and there the objective
given to the optimiser has gradient zero. -/
theorem mnl_ridge_one_estimate {d : FitData R O A K ι} {f : R → O} (hM : Indicates d.rowsToObs f)
    {c : O → R} (hc : OneChoice f d.choice c) {weights : Option (R → ℝ)} (hw : ObsWeights f weights)
    (hw0 : NonnegWeights weights) {ρ : ℝ} (hρ : 0 < ρ) (constrained : Option (List K)) (x₀ : K → ℝ)
    (hsmall : ∀ r, (∑ k, d.design r k ^ 2) * -(mnlEstimator d (some ρ) weights constrained).logLik x₀ <
      700 ^ 2 * ρ) :
    ∃ x, (∀ y, IsBest (mnlEstimator d (some ρ) weights constrained).logLik (constrained.getD []) x₀ y ↔ y = x) ∧
      ((mnlEstimator d (some ρ) weights constrained).negLLAndGrad x).2 = 0 := by
  set e := mnlEstimator d (some ρ) weights constrained with he
  obtain ⟨⟨x, hx⟩, hbound⟩ := mnl_ridge_attained hM hc hw0 hρ constrained x₀
  have hin : ∀ y, IsBest e.logLik (constrained.getD []) x₀ y → ∀ r, |(d.design *ᵥ y) r| < 700 := by
    intro y hy r
    have h1 := hbound y hy
    have h2 : ((d.design *ᵥ y) r) ^ 2 ≤ (∑ k, d.design r k ^ 2) * ∑ k, y k ^ 2 := by
      simp only [mulVec, dotProduct]
      exact Finset.sum_mul_sq_le_sq_mul_sq _ _ _
    have h3 : 0 ≤ ∑ k, d.design r k ^ 2 := Finset.sum_nonneg fun k _ => sq_nonneg _
    have h4 : ρ * ((d.design *ᵥ y) r) ^ 2 < ρ * 700 ^ 2 := by
      calc ρ * ((d.design *ᵥ y) r) ^ 2 ≤ (∑ k, d.design r k ^ 2) * (ρ * ∑ k, y k ^ 2) := by nlinarith
        _ ≤ (∑ k, d.design r k ^ 2) * -e.logLik x₀ := by gcongr
        _ < ρ * 700 ^ 2 := by linarith [hsmall r]
    have h5 := lt_of_mul_lt_mul_left h4 hρ.le
    exact abs_lt_of_sq_lt_sq h5 (by norm_num)
  have hobj := mnl_objective (ridge := some ρ) hM hc hw constrained x (hin x hx)
  have hval : ∀ y, penalisedLogLik c weights (some ρ) (fun θ => clippedLogit f (d.design *ᵥ θ)) y =
      e.logLik y := by
    intro y
    rw [he]
    simp only [mnlEstimator, estimatorNone]
    rw [loglik_formula hc, penalisedLogLik, estWeights_getD]
    simp only [modelProbs, mnlTransform, longProbs_eq_clippedLogit hM]
    simp [Spec.penalty]
  have hcon : e.constrainedPos = constrained := rfl
  have hgrad : (e.negLLAndGrad x).2 = 0 := by
    funext k
    by_cases hk : k ∈ constrained.getD []
    · exact hobj.fixed k hk
    · have hd := hobj.free k hk
      refine IsLocalMin.hasDerivAt_eq_zero (Filter.Eventually.of_forall fun t => ?_) hd
      simp only [hval, update_eq_self]
      refine neg_le_neg (hx.2 _ fun i hi => ?_)
      rw [update_of_ne (fun h : i = k => hk (h ▸ hi))]
      exact hx.1 i hi
  refine ⟨x, fun y => ⟨fun hy => ?_, fun h => h ▸ hx⟩, hgrad⟩
  have ht := mnl_below_tangent hM hc (obsWeights_est hw) (fun w hw' r => by
      cases hw'; exact nonnegWeights_default hw0 r) d.design d.altIDs d.rowsToAlts (some ρ) x y
    (fun r => (hin x hx r).le) (fun r => (hin y hy r).le) (weights := estWeights weights)
  have hdot : e.gradient x ⬝ᵥ (y - x) = 0 := by
    refine Finset.sum_eq_zero fun k _ => ?_
    by_cases hk : k ∈ constrained.getD []
    · simp [hx.1 k hk, hy.1 k hk]
    · have h0 := congrFun hgrad k
      have : e.gradient x k = 0 := by
        unfold Estimator.negLLAndGrad at h0
        rw [hcon] at h0
        cases hcc : constrained with
        | none => rw [hcc] at h0; simpa using h0
        | some l =>
          rw [hcc] at h0 hk
          simp only [Option.getD_some] at hk
          simpa [hk] using h0
      rw [this, zero_mul]
  have hle : e.logLik x ≤ e.logLik y := hy.2 x hx.1
  change e.logLik y ≤ e.logLik x + e.gradient x ⬝ᵥ (y - x) - ρ * ∑ k, (y k - x k) ^ 2 at ht
  rw [hdot] at ht
  have hz : ∑ k, (y k - x k) ^ 2 ≤ 0 := by
    by_contra h
    have := mul_pos hρ (not_le.1 h)
    linarith
  funext k
  have hk := Finset.single_le_sum (f := fun k => (y k - x k) ^ 2) (fun i _ => sq_nonneg _) (mem_univ k)
  have : (y k - x k) ^ 2 = 0 := le_antisymm (hk.trans hz) (sq_nonneg _)
  linarith [pow_eq_zero_iff (two_ne_zero) |>.1 this]

/-! ## Nested logit: the penalty does not help

The penalty acts on the natural nest coefficients, which stay between 0 and 1, so it does not bound the
parameters that are estimated. -/

/-- Three alternatives: the first two form nest 0, the third is alone in nest 1; one observation, which chose the first;
utilities do not depend on the coefficient. -/
noncomputable def exNestTie : FitData (Fin 3) (Fin 1) (Fin 3) (Fin 1) (Fin 3) where
  design := 0
  altIDs := id
  rowsToObs := fun _ _ => 1
  rowsToAlts := 1
  choice := ![1, 0, 0]

theorem nestTie_prob (lam : Fin 2 → ℝ) :
    nestedProb (fun _ : Fin 3 => (0 : Fin 1)) (![0, 0, 1] : Fin 3 → Fin 2) (fun _ => 0) lam 0 =
      (2 : ℝ) ^ lam 0 / ((2 : ℝ) ^ lam 0 + 1) * (1 / 2) := by
  have r0 : nestRows (fun _ : Fin 3 => (0 : Fin 1)) (![0, 0, 1] : Fin 3 → Fin 2) 0 0 = {0, 1} := by
    decide
  have r1 : nestRows (fun _ : Fin 3 => (0 : Fin 1)) (![0, 0, 1] : Fin 3 → Fin 2) 0 1 = {2} := by
    decide
  have ha : availNests (fun _ : Fin 3 => (0 : Fin 1)) (![0, 0, 1] : Fin 3 → Fin 2) 0 = univ := by
    decide
  have s0 : nestSum (fun _ : Fin 3 => (0 : Fin 1)) (![0, 0, 1] : Fin 3 → Fin 2) (fun _ => 0) lam 0 0 = 2 := by
    rw [nestSum, r0]; norm_num
  have s1 : nestSum (fun _ : Fin 3 => (0 : Fin 1)) (![0, 0, 1] : Fin 3 → Fin 2) (fun _ => 0) lam 0 1 = 1 := by
    rw [nestSum, r1]; norm_num
  simp only [nestedProb, nestProb, condProb, ha, Fin.sum_univ_two]
  change nestSum _ _ _ lam 0 0 ^ lam 0 / _ * (Real.exp (0 / _) / nestSum _ _ _ lam 0 0) = _
  rw [s0, s1]
  simp

/-- **C88** (nested logit, witness). However large the penalty, whatever the starting values, and with
the degenerate nest constrained as `fit_mle` does, no parameter vector is best. -/
theorem nested_ridge_not_attained (ridge : Option ℝ) (hρ : ∀ ρ, ridge = some ρ → 0 ≤ ρ)
    (x₀ x : Fin 2 ⊕ Fin 1 → ℝ) :
    ¬ IsBest (nestedEstimator exNestTie (Matrix.of fun r m => if (![0, 0, 1] : Fin 3 → Fin 2) r = m then 1 else 0)
      ridge none (some [.inl 1])).logLik [.inl 1] x₀ x := by
  have hM : Indicates exNestTie.rowsToObs (fun _ => 0) := by
    intro r o; fin_cases o; simp [exNestTie]
  have hQ : Indicates (Matrix.of fun r m => if (![0, 0, 1] : Fin 3 → Fin 2) r = m then (1 : ℝ) else 0)
      (![0, 0, 1] : Fin 3 → Fin 2) := fun r m => rfl
  have hc : OneChoice (fun _ => 0) exNestTie.choice (fun _ : Fin 1 => (0 : Fin 3)) := by
    refine ⟨fun o => (Fin.eq_zero o).symm, fun _ => rfl, fun r hr => ?_⟩
    fin_cases r <;> simp_all [exNestTie]
  rintro ⟨h1, h2⟩
  have h := h2 (update x (.inl 0) (x (.inl 0) + 1)) fun i hi => by
    obtain rfl : i = .inl 1 := by simpa using hi
    rw [update_of_ne (by simp)]
    exact h1 _ (by simp)
  rw [nestedEstimator_loglik hM hQ hc, nestedEstimator_loglik hM hQ hc] at h
  revert h
  rw [imp_false, not_le]
  have hV : ∀ b : Fin 1 → ℝ, exNestTie.design *ᵥ b = fun _ => 0 := fun b => by
    funext r; simp [exNestTie, mulVec, dotProduct]
  have hl : ∀ t : ℝ, 0 < 1 / (1 + Real.exp (-t)) ∧ 1 / (1 + Real.exp (-t)) < 1 := fun t => by
    have := Real.exp_pos (-t)
    exact ⟨by positivity, (div_lt_one (by positivity)).2 (by linarith)⟩
  have hlt : 1 / (1 + Real.exp (-x (.inl 0))) < 1 / (1 + Real.exp (-(x (.inl 0) + 1))) := by
    have := Real.exp_lt_exp.2 (show -(x (.inl 0) + 1) < -x (.inl 0) by linarith)
    have p := Real.exp_pos (-(x (.inl 0) + 1))
    exact div_lt_div_of_pos_left one_pos (by positivity) (by linarith)
  simp only [nestedLogLik, hV, nestTie_prob, logisticCoefs, Fin.sum_univ_two, update_self,
    univ_unique, sum_singleton, Option.getD_none, one_mul]
  rw [update_of_ne (by simp), update_of_ne (by simp)]
  have h0 := hl (x (.inl 0))
  have h1' := hl (x (.inl 0) + 1)
  generalize 1 / (1 + Real.exp (-x (.inl 0))) = a at *
  generalize 1 / (1 + Real.exp (-(x (.inl 0) + 1))) = b at *
  have hp : (0 : ℝ) < 2 ^ a := Real.rpow_pos_of_pos two_pos _
  have hpow : (2 : ℝ) ^ a < 2 ^ b := Real.rpow_lt_rpow_of_exponent_lt one_lt_two hlt
  have hq : (2 : ℝ) ^ a / (2 ^ a + 1) < 2 ^ b / (2 ^ b + 1) := by
    rw [div_lt_div_iff₀ (by linarith) (by linarith)]; nlinarith
  have hlog : Real.log ((2 : ℝ) ^ a / (2 ^ a + 1) * (1 / 2)) < Real.log ((2 : ℝ) ^ b / (2 ^ b + 1) * (1 / 2)) :=
    Real.log_lt_log (by positivity) (by linarith)
  have hr : 0 ≤ ridge.getD 0 := ridge_getD_nonneg hρ
  have hsq : (b - 1) ^ 2 ≤ (a - 1) ^ 2 := by nlinarith
  have := mul_le_mul_of_nonneg_left hsq hr
  nlinarith

end Pylogit
