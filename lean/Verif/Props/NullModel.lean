import Verif.Props.EstimatorsMore

/-!
# C85 and C86: the null log-likelihood and the statistics reported with a fit

`estimate` calls the log-likelihood at a vector of zeros the null log-likelihood; users read rho-squared as
the improvement over giving every available alternative the same probability.
-/

set_option linter.unusedSectionVars false

open Finset Matrix Function

namespace Pylogit

open Spec

section Equal

variable {R O A K ι : Type} [Fintype R] [DecidableEq R] [Fintype O] [DecidableEq O] [Fintype K]
  [DecidableEq K] {f : R → O} {c : O → R} {ridge : Option ℝ} {weights : Option (R → ℝ)}

/-- The weighted log-likelihood when every alternative available to an observation is equally likely. -/
noncomputable def Spec.equalSharesLogLik (f : R → O) (c : O → R) (weights : Option (R → ℝ)) : ℝ :=
  ∑ o, (weights.getD fun _ => 1) (c o) * Real.log (1 / (rowsOf f o).card)

theorem clippedLogit_const {h : R → ℝ} {b : ℝ} (hb : ∀ r, h r = b) (r : R) :
    clippedLogit f h r = 1 / (rowsOf f (f r)).card := by
  simp only [clippedLogit, logitProb, hb, Finset.sum_const, nsmul_eq_mul]
  rw [div_mul_eq_div_div_swap, div_self (Real.exp_pos _).ne']

/-- The log-likelihood of constant utilities at the zero vector is that of equal shares. -/
theorem penalised_null {P : Type} [Fintype P] (hc : ∀ o, f (c o) = o) {h : (P → ℝ) → R → ℝ} {b : ℝ}
    (hb : ∀ r, h (fun _ => 0) r = b) :
    penalisedLogLik c weights ridge (fun θ => clippedLogit f (h θ)) (fun _ => 0) =
      equalSharesLogLik f c weights := by
  simp only [penalisedLogLik, equalSharesLogLik, clippedLogit_const hb, hc]
  simp

/-- **C85**, multinomial logit. -/
theorem mnl_null {d : FitData R O A K ι} (hM : Indicates d.rowsToObs f) (hc : OneChoice f d.choice c)
    (con : Option (List K)) (m : Minimizer K) (init : K → ℝ) :
    (estimate m (mnlEstimator d ridge weights con) init).nullLL = equalSharesLogLik f c weights := by
  have h := mnl_objective_value (ridge := ridge) (weights := weights) hM hc con (fun _ => 0)
  rw [constrained_gradient_fst, neg_inj] at h
  simp only [estimate]
  rw [h]
  exact penalised_null hc.mem (b := 0) fun r => by simp [mulVec, dotProduct]

end Equal

section Generic

variable {R O A K S I ι : Type} [Fintype R] [DecidableEq R] [Fintype O] [DecidableEq O]
  [Fintype K] [DecidableEq K] [Fintype S] [DecidableEq S] [Fintype I] [DecidableEq I]
  {f : R → O} {c : O → R} {d : FitData R O A K ι} {ridge : Option ℝ} {weights : Option (R → ℝ)}

theorem estimatorNone_loglik (hM : Indicates d.rowsToObs f) (hc : OneChoice f d.choice c)
    {T : Transform R A S I ι} {derivs : (R → ℝ) → Derivs R S I} {con : Option (List K)}
    (θ : K → ℝ) :
    (estimatorNone T derivs d ridge weights con).logLik θ =
      penalisedLogLik c weights ridge (fun θ => clippedLogit f (T (d.design *ᵥ θ) d.altIDs d.rowsToAlts none none)) θ := by
  simp only [estimatorNone]
  rw [loglik_formula hc, penalisedLogLik, estWeights_getD]
  simp only [modelProbs, longProbs_eq_clippedLogit hM]
  simp [penalty, Fintype.sum_sum_type, add_assoc]

theorem estimatorIcpt_loglik (hM : Indicates d.rowsToObs f) (hc : OneChoice f d.choice c)
    {T : Transform R A S I ι} {derivs : (R → ℝ) → Derivs R S I} {con : Option (List (I ⊕ K))}
    (θ : (I ⊕ K) → ℝ) :
    (estimatorIcpt T derivs d ridge weights con).logLik θ =
      penalisedLogLik c weights ridge (fun θ => clippedLogit f (T (d.design *ᵥ fun k => θ (.inr k)) d.altIDs d.rowsToAlts none (some fun i => θ (.inl i)))) θ := by
  simp only [estimatorIcpt]
  rw [loglik_formula hc, penalisedLogLik, estWeights_getD]
  simp only [modelProbs, longProbs_eq_clippedLogit hM]
  simp [penalty, Fintype.sum_sum_type, add_assoc]

theorem estimatorShape_loglik (hM : Indicates d.rowsToObs f) (hc : OneChoice f d.choice c)
    {T : Transform R A S I ι} {derivs : (S → ℝ) → (R → ℝ) → Derivs R S I} {con : Option (List (S ⊕ K))}
    (θ : (S ⊕ K) → ℝ) :
    (estimatorShape T derivs d ridge weights con).logLik θ =
      penalisedLogLik c weights ridge (fun θ => clippedLogit f (T (d.design *ᵥ fun k => θ (.inr k)) d.altIDs d.rowsToAlts (some fun i => θ (.inl i)) none)) θ := by
  simp only [estimatorShape]
  rw [loglik_formula hc, penalisedLogLik, estWeights_getD]
  simp only [modelProbs, longProbs_eq_clippedLogit hM]
  simp [penalty, Fintype.sum_sum_type, add_assoc]

theorem estimatorBoth_loglik (hM : Indicates d.rowsToObs f) (hc : OneChoice f d.choice c)
    {T : Transform R A S I ι} {derivs : (S → ℝ) → (R → ℝ) → Derivs R S I} {con : Option (List (S ⊕ (I ⊕ K)))}
    (θ : (S ⊕ (I ⊕ K)) → ℝ) :
    (estimatorBoth T derivs d ridge weights con).logLik θ =
      penalisedLogLik c weights ridge (fun θ => clippedLogit f (T (d.design *ᵥ fun k => θ (.inr (.inr k))) d.altIDs d.rowsToAlts
        (some fun i => θ (.inl i)) (some fun i => θ (.inr (.inl i))))) θ := by
  simp only [estimatorBoth]
  rw [loglik_formula hc, penalisedLogLik, estWeights_getD]
  simp only [modelProbs, longProbs_eq_clippedLogit hM]
  simp [penalty, Fintype.sum_sum_type, add_assoc]

end Generic

section Models

variable {R O A K ι : Type} [Fintype R] [DecidableEq R] [Fintype O] [DecidableEq O] [Fintype K]
  [DecidableEq K] {n : ℕ} {f : R → O} {c : O → R} {ridge : Option ℝ} {weights : Option (R → ℝ)}
  {d : FitData R O (Fin (n + 1)) K ι} {alt : R → Fin (n + 1)}

theorem withReference_zero (ref : Fin (n + 1)) : withReference ref (fun _ => 0) = fun _ => 0 := by
  funext j
  rcases Fin.eq_self_or_eq_succAbove ref j with rfl | ⟨i, rfl⟩ <;> simp [withReference]

private lemma design_zero (X : Matrix R K ℝ) : X *ᵥ (fun _ => (0 : ℝ)) = 0 := by
  funext r; simp [mulVec, dotProduct]

/-- **C85**, Scobit with outside intercepts. -/
theorem scobit_null (hM : Indicates d.rowsToObs f) (hA : Indicates d.rowsToAlts alt)
    (hc : OneChoice f d.choice c) (ref : Fin (n + 1)) (con : Option (List (Fin (n + 1) ⊕ (Fin n ⊕ K)))) (m : Minimizer (Fin (n + 1) ⊕ (Fin n ⊕ K)))
    (init : Fin (n + 1) ⊕ (Fin n ⊕ K) → ℝ) :
    (estimate m (scobitEstimator ref d ridge weights con) init).nullLL =
      equalSharesLogLik f c weights := by
  simp only [estimate, scobitEstimator]
  rw [estimatorBoth_loglik hM hc]
  simp only [scobitTransform_eq hA ref]
  exact penalised_null hc.mem (b := 0) fun r => by
    simp only [design_zero, withReference_zero]
    norm_num [scobitUtility]

/-- **C85**, Scobit without outside intercepts. -/
theorem scobit_null_plain (hM : Indicates d.rowsToObs f) (hA : Indicates d.rowsToAlts alt)
    (hc : OneChoice f d.choice c) (ref : Fin (n + 1)) (con : Option (List (Fin (n + 1) ⊕ K))) (m : Minimizer (Fin (n + 1) ⊕ K))
    (init : Fin (n + 1) ⊕ K → ℝ) :
    (estimate m (scobitEstimatorPlain ref d ridge weights con) init).nullLL =
      equalSharesLogLik f c weights := by
  simp only [estimate, scobitEstimatorPlain]
  rw [estimatorShape_loglik hM hc]
  simp only [scobitTransform_eq_plain hA ref]
  exact penalised_null hc.mem (b := 0) fun r => by
    simp only [design_zero]
    norm_num [scobitUtility]

/-- **C85**, uneven logit with outside intercepts. -/
theorem uneven_null (hM : Indicates d.rowsToObs f) (hA : Indicates d.rowsToAlts alt)
    (hc : OneChoice f d.choice c) (ref : Fin (n + 1)) (con : Option (List (Fin (n + 1) ⊕ (Fin n ⊕ K)))) (m : Minimizer (Fin (n + 1) ⊕ (Fin n ⊕ K)))
    (init : Fin (n + 1) ⊕ (Fin n ⊕ K) → ℝ) :
    (estimate m (unevenEstimator ref d ridge weights con) init).nullLL =
      equalSharesLogLik f c weights := by
  simp only [estimate, unevenEstimator]
  rw [estimatorBoth_loglik hM hc]
  simp only [unevenTransform_eq hA ref]
  exact penalised_null hc.mem (b := 0) fun r => by
    simp only [design_zero, withReference_zero]
    norm_num [unevenUtility]

/-- **C85**, uneven logit without outside intercepts. -/
theorem uneven_null_plain (hM : Indicates d.rowsToObs f) (hA : Indicates d.rowsToAlts alt)
    (hc : OneChoice f d.choice c) (ref : Fin (n + 1)) (con : Option (List (Fin (n + 1) ⊕ K))) (m : Minimizer (Fin (n + 1) ⊕ K))
    (init : Fin (n + 1) ⊕ K → ℝ) :
    (estimate m (unevenEstimatorPlain ref d ridge weights con) init).nullLL =
      equalSharesLogLik f c weights := by
  simp only [estimate, unevenEstimatorPlain]
  rw [estimatorShape_loglik hM hc]
  simp only [unevenTransform_eq_plain hA ref]
  exact penalised_null hc.mem (b := 0) fun r => by
    simp only [design_zero]
    norm_num [unevenUtility]

/-- **C85**, clog-log with outside intercepts. -/
theorem clog_null (hM : Indicates d.rowsToObs f) (hA : Indicates d.rowsToAlts alt)
    (hc : OneChoice f d.choice c) (ref : Fin (n + 1)) (con : Option (List (Fin n ⊕ K))) (m : Minimizer (Fin n ⊕ K))
    (init : Fin n ⊕ K → ℝ) :
    (estimate m (clogEstimator ref d ridge weights con) init).nullLL =
      equalSharesLogLik f c weights := by
  simp only [estimate, clogEstimator]
  rw [estimatorIcpt_loglik hM hc]
  simp only [clogTransform_eq hA ref]
  exact penalised_null hc.mem (b := Real.log (Real.exp 1 - 1)) fun r => by
    simp only [design_zero, withReference_zero]
    norm_num [clogUtility]

/-- **C85**, clog-log without outside intercepts. -/
theorem clog_null_plain (hM : Indicates d.rowsToObs f) (hA : Indicates d.rowsToAlts alt)
    (hc : OneChoice f d.choice c) (ref : Fin (n + 1)) (con : Option (List (K))) (m : Minimizer (K))
    (init : K → ℝ) :
    (estimate m (clogEstimatorPlain ref d ridge weights con) init).nullLL =
      equalSharesLogLik f c weights := by
  simp only [estimate, clogEstimatorPlain]
  rw [estimatorNone_loglik hM hc]
  simp only [clogTransform_eq_plain hA ref]
  exact penalised_null hc.mem (b := Real.log (Real.exp 1 - 1)) fun r => by
    simp only [design_zero]
    norm_num [clogUtility]

/-- **C85**, asymmetric logit with outside intercepts. -/
theorem asym_null (hM : Indicates d.rowsToObs f) (hA : Indicates d.rowsToAlts alt)
    (hc : OneChoice f d.choice c) (hn : 0 < n) (sref ref : Fin (n + 1)) (con : Option (List (Fin n ⊕ (Fin n ⊕ K)))) (m : Minimizer (Fin n ⊕ (Fin n ⊕ K)))
    (init : Fin n ⊕ (Fin n ⊕ K) → ℝ) :
    (estimate m (asymEstimator sref ref d ridge weights con) init).nullLL =
      equalSharesLogLik f c weights := by
  simp only [estimate, asymEstimator]
  rw [estimatorBoth_loglik hM hc]
  simp only [asymTransform_eq hA hn sref ref]
  exact penalised_null hc.mem (b := Real.log (1 / (n + 1))) fun r => by
    simp only [design_zero, withReference_zero]
    simp [asymUtility, naturalShape]

/-- **C85**, asymmetric logit without outside intercepts. -/
theorem asym_null_plain (hM : Indicates d.rowsToObs f) (hA : Indicates d.rowsToAlts alt)
    (hc : OneChoice f d.choice c) (hn : 0 < n) (sref ref : Fin (n + 1)) (con : Option (List (Fin n ⊕ K))) (m : Minimizer (Fin n ⊕ K))
    (init : Fin n ⊕ K → ℝ) :
    (estimate m (asymEstimatorPlain sref ref d ridge weights con) init).nullLL =
      equalSharesLogLik f c weights := by
  simp only [estimate, asymEstimatorPlain]
  rw [estimatorShape_loglik hM hc]
  simp only [asymTransform_eq_plain hA hn sref ref]
  exact penalised_null hc.mem (b := Real.log (1 / (n + 1))) fun r => by
    simp only [design_zero, withReference_zero]
    simp [asymUtility, naturalShape]

end Models

/-! ## Mixed and nested logit -/

section Mixed

variable {R O M D P : Type} [Fintype R] [DecidableEq R] [Fintype O] [DecidableEq O] [Fintype M]
  [DecidableEq M] [Fintype D] [Fintype P] [DecidableEq P]

theorem zeroOne_of_oneChoice {f : R → O} {choice : R → ℝ} {c : O → R} (hc : OneChoice f choice c) :
    ZeroOne choice := fun r => by
  by_cases h : r = c (f r)
  · right; rw [h]; exact hc.one _
  · left; exact hc.zero r h

theorem nonnegWeights_est {weights : Option (R → ℝ)} (hw0 : NonnegWeights weights) :
    NonnegWeights (estWeights weights) := by
  intro w e r
  cases weights with
  | none => cases e; simp [defaultWeights]
  | some w0 => cases e; exact hw0 w0 rfl r

theorem mixedEstimator_loglik [Nonempty R] {B : Matrix R O ℝ} {f : R → O} (hB : Indicates B f)
    {C : Matrix R M ℝ} {g : R → M} (hC : Indicates C g) {choice : R → ℝ} {c : O → R}
    (hc : OneChoice f choice c) {weights : Option (R → ℝ)} (hw : ObsWeights g weights)
    (hw0 : NonnegWeights weights) {first : M → R} (hfirst : ∀ m, g (first m) = m) (θ : P → ℝ)
    (X : R → D → P → ℝ) (ridge : Option ℝ) (con : Option (List P)) :
    (mixedEstimator X B C choice ridge weights con).logLik θ =
      simulatedLogLik f g first choice X weights ridge θ := by
  simp only [mixedEstimator]
  rw [mixed_loglik_formula hB hC (zeroOne_of_oneChoice hc) (obsWeights_est hw) (nonnegWeights_est hw0) hfirst,
    estWeights_getD]
  simp only [kernelProbs, longProbs_eq_clippedLogit hB, simulatedLogLik]

/-- **C85**, mixed logit. -/
theorem mixed_null [Nonempty R] [Nonempty D] {B : Matrix R O ℝ} {f : R → O} (hB : Indicates B f)
    {C : Matrix R M ℝ} {g : R → M} (hC : Indicates C g) {choice : R → ℝ} {c : O → R}
    (hc : OneChoice f choice c) {weights : Option (R → ℝ)} (hw : ObsWeights g weights)
    (hw0 : NonnegWeights weights) {first : M → R} (hfirst : ∀ m, g (first m) = m)
    (X : R → D → P → ℝ) (ridge : Option ℝ) (con : Option (List P)) (m : Minimizer P) (init : P → ℝ) :
    (estimate m (mixedEstimator X B C choice ridge weights con) init).nullLL =
      equalSharesLogLik f c weights := by
  simp only [estimate]
  rw [mixedEstimator_loglik hB hC hc hw hw0 hfirst]
  set w := weights.getD fun _ => 1 with hwd
  have hw' : ∀ r s, g r = g s → w r = w s := by
    intro r s h
    cases weights with
    | none => simp [hwd]
    | some w0 => exact hw w0 rfl r s h
  have havg : ∀ x : ℝ, average (fun _ : D => x) = x := by
    intro x
    have : (Fintype.card D : ℝ) ≠ 0 := by exact_mod_cast Fintype.card_ne_zero
    simp [average, this]
  have hcard : ∀ r, (0 : ℝ) < (rowsOf f (f r)).card := fun r => by
    exact_mod_cast Finset.card_pos.2 ⟨r, mem_rowsOf.2 rfl⟩
  have h1 : ∀ m, w (first m) * Real.log (average fun _ : D => sequenceProb g choice
      (clippedLogit f fun r => ∑ q : P, X r (Classical.arbitrary D) q * 0) m) =
      ∑ r, if g r = m then choice r * (w r * Real.log (1 / (rowsOf f (f r)).card)) else 0 := by
    intro m
    rw [havg, sequenceProb, Real.log_prod (fun r _ => by
      rw [clippedLogit_const (b := 0) (fun r => by simp)]
      have := hcard r
      positivity)]
    rw [Finset.mul_sum, Finset.sum_filter]
    refine Finset.sum_congr rfl fun r _ => ?_
    by_cases hg : g r = m
    · rw [if_pos hg]
      rcases zeroOne_of_oneChoice hc r with h0 | h0
      · simp [h0]
      · rw [if_pos ⟨hg, h0⟩, h0, one_mul, clippedLogit_const (b := 0) (fun r => by simp),
          hw' (first m) r (by rw [hfirst, hg])]
    · simp [hg]
  simp only [simulatedLogLik, equalSharesLogLik]
  simp only [mul_zero] at h1
  simp only [mul_zero, ← hwd]
  rw [Finset.sum_congr rfl fun m _ => h1 m, Finset.sum_comm]
  simp only [Finset.sum_ite_eq, Finset.mem_univ, if_true]
  rw [sum_choice hc fun r => w r * Real.log (1 / (rowsOf f (f r)).card)]
  simp [hc.mem]

end Mixed

section Nested

variable {R O A N K ι : Type} [Fintype R] [DecidableEq R] [Fintype O] [DecidableEq O] [Fintype N]
  [DecidableEq N] [Fintype K] [DecidableEq K] {f : R → O} {g : R → N} {c : O → R}
  {d : FitData R O A K ι} {Q : Matrix R N ℝ} {weights : Option (R → ℝ)}

/-- **C85** (what is computed for the nested logit): raw zeros stand for nest coefficients 1/2, so a nest is
chosen in proportion to the square root of its number of alternatives; and the penalty of these coefficients is
part of the number. -/
theorem nested_null_partial [Nonempty R] (hM : Indicates d.rowsToObs f) (hQ : Indicates Q g)
    (hc : OneChoice f d.choice c) (ridge : Option ℝ) (con : Option (List (N ⊕ K)))
    (m : Minimizer (N ⊕ K)) (init : N ⊕ K → ℝ) :
    (estimate m (nestedEstimator d Q ridge weights con) init).nullLL =
      ∑ o, (weights.getD fun _ => 1) (c o) * Real.log (
        Real.sqrt (nestRows f g o (g (c o))).card / (∑ m ∈ availNests f g o, Real.sqrt (nestRows f g o m).card) *
          (1 / (nestRows f g o (g (c o))).card)) - ridge.getD 0 * (Fintype.card N / 4) := by
  simp only [estimate]
  rw [nestedEstimator_loglik hM hQ hc]
  have hz : d.design *ᵥ (fun _ : K => (0 : ℝ)) = 0 := by funext r; simp [mulVec, dotProduct]
  have hl : logisticCoefs (fun _ : N => (0 : ℝ)) = fun _ => 1 / 2 := by
    funext m; norm_num [logisticCoefs]
  simp only [nestedLogLik, hz, hl, nestedProb, nestProb, condProb, nestSum, hc.mem, Pi.zero_apply, zero_div,
    Real.exp_zero, Finset.sum_const, nsmul_eq_mul, mul_one, ← Real.sqrt_eq_rpow]
  congr 1
  norm_num
  left
  ring

end Nested

/-- **C85** (negation for the nested logit, a concrete data set): observation 0 has two alternatives in one
nest and one in another, and its choice does not have probability 1/3. -/
theorem nested_null_not_equal_shares (m : Minimizer (Fin 2 ⊕ Fin 1)) (init : Fin 2 ⊕ Fin 1 → ℝ) :
    (estimate m (nestedEstimator exNestFit (fun r m => if exNest r = m then 1 else 0) none none none)
      init).nullLL ≠ equalSharesLogLik exNestObs ![1, 4] none := by
  rw [nested_null_partial (f := exNestObs) (g := exNest) (c := ![1, 4]) (fun _ _ => rfl) (fun _ _ => rfl)
    exNest_oneChoice]
  have a0 : availNests exNestObs exNest 0 = {0, 1} := by decide
  have a1 : availNests exNestObs exNest 1 = {0, 1} := by decide
  have c00 : (nestRows exNestObs exNest 0 0).card = 2 := by decide
  have c01 : (nestRows exNestObs exNest 0 1).card = 1 := by decide
  have c10 : (nestRows exNestObs exNest 1 0).card = 1 := by decide
  have c11 : (nestRows exNestObs exNest 1 1).card = 1 := by decide
  have r0 : (rowsOf exNestObs 0).card = 3 := by decide
  have r1 : (rowsOf exNestObs 1).card = 2 := by decide
  have e0 : exNest 1 = 0 := rfl
  have e1 : exNest 4 = 1 := rfl
  simp only [equalSharesLogLik, Fin.sum_univ_two, Matrix.cons_val_zero, Matrix.cons_val_one, Option.getD_none,
    a0, a1, e0, e1, r0, r1, one_mul, zero_mul, sub_zero]
  rw [Finset.sum_pair (by decide), Finset.sum_pair (by decide)]
  simp only [c00, c01, c10, c11]
  intro h
  norm_num at h
  set q := Real.sqrt 2 with hq
  have hq2 : q ^ 2 = 2 := Real.sq_sqrt (by norm_num)
  have hq0 : 0 < q := Real.sqrt_pos.2 (by norm_num)
  have hinj : q / (q + 1) * (1 / 2) = 1 / 3 := by
    refine Real.log_injOn_pos (Set.mem_Ioi.2 (by positivity)) (Set.mem_Ioi.2 (by norm_num)) ?_
    exact h
  rw [div_mul_div_comm, div_eq_div_iff (by positivity) (by norm_num)] at hinj
  nlinarith

/-! ## C86 -/

section Reports

variable {P : Type} [Fintype P] [DecidableEq P]

/-- **C86**. Whatever the optimiser does, as long as it reports the value of its objective at the point it
returns: if the objective of the fit is `-LL` with its derivatives at that point, then the reported final
log-likelihood is `LL` at the reported estimates, the reported gradient has the derivatives of `LL` there at all
free parameters, and the reported Hessian is minus the one handed to the optimiser there. -/
theorem fit_reports_estimates {m : Minimizer P} (hm : Faithful m) (e : Estimator P) (init : P → ℝ)
    {LL : (P → ℝ) → ℝ} (h : ObjectiveFor e LL (estimate m e init).params) :
    (estimate m e init).finalLL = LL (estimate m e init).params ∧
    (∀ i, i ∉ e.constrainedPos.getD [] →
      HasDerivAt (fun t => LL (update (estimate m e init).params i t)) ((estimate m e init).gradient i)
        ((estimate m e init).params i)) ∧
    (estimate m e init).hessian = -e.negHessian (estimate m e init).params := by
  refine ⟨?_, fun i hi => ?_, ?_⟩
  · have hv := h.value
    have hf := hm e.negLLAndGrad init e.negHessian
    simp only [estimate] at hv ⊢
    rw [hf, hv]
    ring
  · have hd := (h.free i hi).fun_neg
    rw [negGrad_free _ _ hi] at hd
    simp only [neg_neg] at hd
    exact hd
  · simp only [estimate, Estimator.negHessian]
    rw [neg_one_smul, neg_neg]

/-- **C86** for the multinomial logit: no hypothesis on the objective is left but the clipping range. -/
theorem mnl_fit_reports {R O A ι : Type} [Fintype R] [DecidableEq R] [Fintype O] [DecidableEq O]
    {d : FitData R O A P ι} {f : R → O} {c : O → R} (hM : Indicates d.rowsToObs f)
    (hc : OneChoice f d.choice c) {m : Minimizer P} (hm : Faithful m) (ridge : Option ℝ)
    (weights : Option (R → ℝ)) (con : Option (List P)) (init : P → ℝ)
    (hb : ∀ r, |(d.design *ᵥ (fitMle m (fun w => mnlEstimator d ridge w con) weights init).params) r| < 700) :
    let fit := fitMle m (fun w => mnlEstimator d ridge w con) weights init
    let LL := penalisedLogLik c none ridge fun θ => clippedLogit f (d.design *ᵥ θ)
    fit.finalLL = LL fit.params ∧ fit.nullLL = equalSharesLogLik f c none ∧
      ∀ i, i ∉ con.getD [] → HasDerivAt (fun t => LL (update fit.params i t)) (fit.gradient i) (fit.params i) := by
  intro fit LL
  have h := fit_reports_estimates hm (mnlEstimator d ridge none con) init
    (mnl_objective hM hc (fun w e => by cases e) con _ hb)
  exact ⟨h.1, mnl_null hM hc con m init, h.2.1⟩

end Reports

/-! ## Non-vacuity -/

example (m : Minimizer (Fin 1)) (init : Fin 1 → ℝ) :
    (estimate m (mnlEstimator exFit (some 0.5) none none) init).nullLL = equalSharesLogLik exObs ![1, 2] none :=
  mnl_null exM_indicates exOneChoice none m init

/-- An optimiser that returns the starting point. -/
def exStay : Minimizer (Fin 1) := fun f x _ => ⟨x, (f x).1⟩

example : let fit := fitMle exStay (fun w => mnlEstimator exFit (some 0.5) w none) none (fun _ => 1)
    let LL := penalisedLogLik ![1, 2] none (some 0.5) fun θ => clippedLogit exObs (exFit.design *ᵥ θ)
    fit.finalLL = LL fit.params ∧ fit.nullLL = equalSharesLogLik exObs ![1, 2] none ∧
      ∀ i, i ∉ (none : Option (List (Fin 1))).getD [] →
        HasDerivAt (fun t => LL (update fit.params i t)) (fit.gradient i) (fit.params i) :=
  mnl_fit_reports exM_indicates exOneChoice (fun _ _ _ => rfl) _ _ _ _ (by
    intro r
    have : (fitMle exStay (fun w => mnlEstimator exFit (some 0.5) w none) none (fun _ => 1)).params =
      fun _ => 1 := rfl
    rw [this]
    fin_cases r <;> norm_num [exFit, mulVec, dotProduct])

example (m : Minimizer (Fin 2 ⊕ (Fin 1 ⊕ Fin 1))) (init : Fin 2 ⊕ (Fin 1 ⊕ Fin 1) → ℝ) :
    (estimate m (scobitEstimator 1 exFit (some 0.5) none none) init).nullLL =
      equalSharesLogLik exObs ![1, 2] none :=
  scobit_null (n := 1) (alt := ![0, 1, 0]) exM_indicates (fun _ _ => rfl) exOneChoice 1 none m init

end Pylogit
