import Verif.Spec.WholeFitNested
import Verif.Props.WholeFitTypes
import Verif.Props.NestedFit
import Verif.Props.EstimatorsMore
import Verif.Props.Scores

/-!
# What a fit of the nested logit model reports about its table (C110)
-/

open Matrix

namespace Pylogit

open Spec

noncomputable section

/-! ## Helper lemmas: the estimator -/

section Est

variable {R O A N K ι P : Type} [Fintype R] [DecidableEq R] [Nonempty R] [Fintype O] [DecidableEq O] [Fintype N]
  [DecidableEq N] [Fintype K] [DecidableEq K] [Fintype P] [DecidableEq P] {f : R → O} {g : R → N} {c : O → R}
  {d : FitData R O A K ι} {Q : Matrix R N ℝ}

omit [DecidableEq P] in
/-- Replacing rows and columns by those of minus the identity keeps a matrix below a multiple of it. -/
theorem mask_below [DecidableEq P] {b : ℝ} {H : Matrix P P ℝ} (h : SymmBelow b H) (l : Option (List P)) :
    SymmBelow (min b 1) (maskOpt H l) := by
  have key : ∀ l : List P, SymmBelow (min b 1) (maskHessian H l) := by
    intro l
    refine ⟨?_, fun x => ?_⟩
    · ext i j
      rw [transpose_apply, maskHessian_apply, maskHessian_apply]
      have : H j i = H i j := congrFun (congrFun h.1 i) j
      rw [this]
      simp only [or_comm, eq_comm]
    · set y : P → ℝ := fun a => if a ∈ l then 0 else x a with hy
      set z : P → ℝ := fun a => if a ∈ l then x a else 0 with hz
      have e1 : x ⬝ᵥ (maskHessian H l *ᵥ x) = y ⬝ᵥ (H *ᵥ y) - z ⬝ᵥ z := by
        simp only [dotProduct, mulVec]
        rw [← Finset.sum_sub_distrib]
        refine Finset.sum_congr rfl fun a _ => ?_
        by_cases ha : a ∈ l
        · have : ∀ j, maskHessian H l a j * x j = if a = j then -x a else 0 := by
            intro j
            rw [maskHessian_apply]
            by_cases hj : a = j
            · subst hj; simp [ha]
            · simp [ha, hj]
          simp only [this, Finset.sum_ite_eq, Finset.mem_univ, if_true, hy, hz, ha]
          ring
        · have : ∀ j, maskHessian H l a j * x j = H a j * y j := by
            intro j
            rw [maskHessian_apply]
            by_cases hj : j ∈ l
            · have hne : a ≠ j := fun e => ha (e ▸ hj)
              simp [ha, hj, hy, hne]
            · simp [ha, hj, hy]
          simp only [this, hz, ha, if_false, mul_zero, sub_zero]
          simp [hy, ha]
      have e2 : x ⬝ᵥ x = y ⬝ᵥ y + z ⬝ᵥ z := by
        simp only [dotProduct]
        rw [← Finset.sum_add_distrib]
        refine Finset.sum_congr rfl fun a _ => ?_
        by_cases ha : a ∈ l <;> simp [hy, hz, ha]
      have h1 := h.2 y
      have h2 : 0 ≤ y ⬝ᵥ y := Finset.sum_nonneg fun i _ => mul_self_nonneg _
      have h3 : 0 ≤ z ⬝ᵥ z := Finset.sum_nonneg fun i _ => mul_self_nonneg _
      rw [e1, e2]
      have h4 := min_le_left b 1
      have h5 := min_le_right b 1
      nlinarith [mul_le_mul_of_nonneg_right h4 h2, mul_le_mul_of_nonneg_right h5 h3]
  cases l with
  | none =>
    refine ⟨h.1, fun x => (h.2 x).trans ?_⟩
    have h2 : 0 ≤ x ⬝ᵥ x := Finset.sum_nonneg fun i _ => mul_self_nonneg _
    nlinarith [mul_le_mul_of_nonneg_right (min_le_left b 1) h2]
  | some l => exact key l

omit [Fintype P] in
theorem mask_apply (H : Matrix P P ℝ) (l : Option (List P)) (a b : P) :
    maskOpt H l a b = if a ∈ l.getD [] ∨ b ∈ l.getD [] then (if a = b then -1 else 0) else H a b := by
  cases l with
  | none => simp [maskOpt]
  | some l => exact maskHessian_apply H l a b

/-- The entries of the matrix that stands for the Hessian of a nested logit. -/
theorem nested_bhhh_entries (hM : Indicates d.rowsToObs f) (ridge : Option ℝ) (θ : N ⊕ K → ℝ) (hobs : ∀ o, ∃ r, f r = o)
    (i j : N ⊕ K) :
    calcNestedBHHH (fun m => θ (.inl m)) (fun k => θ (.inr k)) d.design d.choice d.rowsToObs Q ridge
      (estWeights none) true i j =
    -∑ o, nestedScores (fun m => θ (.inl m)) (fun k => θ (.inr k)) d.design d.choice d.rowsToObs Q true o i *
        nestedScores (fun m => θ (.inl m)) (fun k => θ (.inr k)) d.design d.choice d.rowsToObs Q true o j -
      2 * ridge.getD 0 * (if i = j then 1 else 0) := by
  have hwo : ∀ o, weightsPerObs d.rowsToObs (defaultWeights (estWeights (none : Option (R → ℝ)))) o = 1 := by
    intro o
    obtain ⟨r, rfl⟩ := hobs o
    rw [weightsPerObs_eq hM (obsWeights_default (obsWeights_est fun w e => by cases e))
      (nonnegWeights_default (nonnegWeights_est fun w e => by cases e)) r]
    rfl
  simp only [calcNestedBHHH, hwo, one_mul]
  generalize nestedScores (fun m => θ (.inl m)) (fun k => θ (.inr k)) d.design d.choice d.rowsToObs Q true = G
  have e : (Gᵀ * Matrix.of fun o i => G o i) i j = ∑ o, G o i * G o j := by
    simp only [Matrix.mul_apply, transpose_apply, Matrix.of_apply]
  cases ridge with
  | none => simp [Matrix.smul_apply, e]
  | some ρ =>
    simp only [Matrix.smul_apply, Matrix.add_apply, e, Matrix.one_apply, smul_eq_mul, Option.getD_some]
    ring

theorem nested_bhhh_below (hM : Indicates d.rowsToObs f) (ridge : Option ℝ) (θ : N ⊕ K → ℝ)
    (hobs : ∀ o, ∃ r, f r = o) :
    SymmBelow (2 * ridge.getD 0) (calcNestedBHHH (fun m => θ (.inl m)) (fun k => θ (.inr k)) d.design d.choice
      d.rowsToObs Q ridge (estWeights none) true) := by
  have h := nested_bhhh_entries (d := d) (Q := Q) hM ridge θ hobs
  generalize calcNestedBHHH (fun m => θ (.inl m)) (fun k => θ (.inr k)) d.design d.choice d.rowsToObs Q ridge
      (estWeights none) true = H at h ⊢
  generalize nestedScores (fun m => θ (.inl m)) (fun k => θ (.inr k)) d.design d.choice d.rowsToObs Q true = G at h
  refine ⟨?_, fun x => ?_⟩
  · ext i j
    rw [transpose_apply, h, h]
    simp only [mul_comm, eq_comm]
  · have e : H = -(Gᵀ * G) - (2 * ridge.getD 0) • 1 := by
      ext i j
      rw [h]
      simp [Matrix.mul_apply, Matrix.one_apply]
    rw [e, Matrix.sub_mulVec, dotProduct_sub, Matrix.smul_mulVec, dotProduct_smul, Matrix.one_mulVec,
      Matrix.neg_mulVec, dotProduct_neg, ← Matrix.mulVec_mulVec, Matrix.dotProduct_mulVec, Matrix.vecMul_transpose]
    have : 0 ≤ (G *ᵥ x) ⬝ᵥ (G *ᵥ x) := Finset.sum_nonneg fun i _ => mul_self_nonneg _
    simp only [smul_eq_mul]
    linarith

/-- What the gradient of the estimator is off by, with or without a penalty. -/
theorem nested_partials (hM : Indicates d.rowsToObs f) (hQ : Indicates Q g) (hc : OneChoice f d.choice c)
    (ridge : Option ℝ) (con : Option (List (N ⊕ K))) (θ : N ⊕ K → ℝ) :
    HasPartials (nestedLogLik f g c d.design none ridge)
      (fun i => (nestedEstimator d Q ridge none con).gradient θ i -
        (emptyNestOffset f g c (fun _ => 1) (fun m => θ (.inl m)) i + ridge.getD 0 * (penaltyGradient θ i -
          2 * (Sum.elim (fun m => 20 - θ (.inl m)) (fun k => θ (.inr k)) : N ⊕ K → ℝ) i))) θ := by
  have e : (nestedEstimator d Q ridge none con).logLik = nestedLogLik f g c d.design none ridge :=
    funext fun θ => nestedEstimator_loglik hM hQ hc ridge con θ
  rw [← e]
  cases ridge with
  | none =>
    have h := nestedEstimator_gradient (weights := none) hM hQ hc (fun w e => by cases e) (fun w e => by cases e) con θ
    intro i
    refine (h i).congr_deriv ?_
    simp only [Option.getD_none, zero_mul, add_zero]
    rfl
  | some ρ =>
    have h := nested_ridge_derivative hM hQ hc (weights := estWeights none) (obsWeights_est fun w e => by cases e)
      (nonnegWeights_est fun w e => by cases e) d.design ρ θ
    intro i
    refine (h i).congr_deriv ?_
    have e2 : (nestedEstimator d Q (some ρ) none con).gradient θ i = _ :=
      nestedObjectiveGradient_ridge (M := d.rowsToObs) (Q := Q) d.design d.choice ρ (estWeights none) θ i
    have e3 : defaultWeights (estWeights (none : Option (R → ℝ))) = fun _ => 1 := rfl
    beta_reduce
    rw [e2, e3, Option.getD_some]
    ring

end Est

/-! ## Helper lemmas: the table -/

theorem count_positions {α : Type} (l : List α) (p : α → Bool) :
    (Finset.univ.filter fun o : Fin l.length => p (l.get o) = true).card = (l.filter p).length := by
  induction l with
  | nil => rfl
  | cons a l ih =>
    rw [Finset.card_filter] at ih ⊢
    refine (Fin.sum_univ_succ (n := l.length) _).trans ?_
    simp only [List.get_eq_getElem, Fin.val_zero, List.getElem_cons_zero, Fin.val_succ, List.getElem_cons_succ]
    simp only [List.get_eq_getElem] at ih
    rw [ih]
    by_cases h : p a = true
    · simp [h, add_comm]
    · simp [h]

section Table

variable {m : ChoiceModel ℝ} {N : ℕ} {g : Fin m.data.numRows → Fin N}

private lemma nested_same {df : Frame ℝ} {obsCol : String} {O : Type} [Fintype O] [DecidableEq O]
    {f : Fin df.numRows → O} {uid : O → ℝ} (hiff : ∀ r o, f r = o ↔ df.val obsCol r = uid o)
    (g : Fin df.numRows → Fin N) (V : Fin df.numRows → ℝ) (lam : Fin N → ℝ) :
    Spec.nestedProb f g V lam = Spec.nestedProb (df.val obsCol) g V lam :=
  nestedProb_congr (fun r s => by rw [hiff, ← (hiff s (f s)).1 rfl]) g V lam

theorem nested_facts (hrows : 0 < m.data.numRows) {Q : Matrix (Fin m.data.numRows) (Fin N) ℝ} (hQ : Indicates Q g)
    {chosen : ℝ → Fin m.data.numRows} (hc : OneChoicePerObs m.data m.args.obsIdCol m.args.choiceCol chosen)
    {ids : List ℝ} (hs : (m.data.colList m.args.obsIdCol).Pairwise (· ≤ ·))
    (hids : AltsOf m.data m.args.obsIdCol ids) (ridge : Option ℝ)
    {V : (Fin m.design.length → ℝ) → Fin m.data.numRows → ℝ} (hV : ∀ β, (modelFitData m).design *ᵥ β = V β) :
    let D := tableOf m ids
    let obj := nestedObject m hrows Q ridge
    (∀ con (θ : Fin (N + m.design.length) → ℝ), (obj.est con).logLik θ = D.nestedLogLik ridge g V θ) ∧
    (∀ con (θ : Fin (N + m.design.length) → ℝ), HasPartials (D.nestedLogLik ridge g V)
      (fun i => (obj.est con).gradient θ i - D.nestedExcess ridge g θ i) θ) ∧
    (∀ con (θ : Fin (N + m.design.length) → ℝ), SymmBelow (min (2 * ridge.getD 0) 1) ((obj.est con).hessian θ)) ∧
    (∀ θ : Fin (N + m.design.length) → ℝ, ∃ S : Fin m.data.numRows → Fin (N + m.design.length) → ℝ,
      (∀ r, D.y r = 1 → HasPartials (fun θ => Real.log (D.nestedProb g V θ r))
        (fun i => S r i - D.nestedScoreExcess g θ r i) θ) ∧
      ∀ (con : Option (List (Fin (N + m.design.length)))) (i j : Fin (N + m.design.length)),
        (obj.est con).hessian θ i j = if i ∈ con.getD [] ∨ j ∈ con.getD [] then (if i = j then -1 else 0)
        else -∑ r, D.y r * (S r i * S r j) - 2 * ridge.getD 0 * (if i = j then 1 else 0)) := by
  intro D obj
  have : Nonempty (Fin m.data.numRows) := ⟨⟨0, hrows⟩⟩
  obtain ⟨f, c, hM, hone, hiff⟩ := table_choice hc
  have hM' : Indicates (modelFitData m).rowsToObs f := hM
  have hone' : OneChoice f (modelFitData m).choice c := hone
  have hobs : ∀ o, ∃ r, f r = o := fun o => ⟨c o, hone.mem o⟩
  have hprob : ∀ (θ : Fin (N + m.design.length) → ℝ) r, D.nestedProb g V θ r =
      Spec.nestedProb f g ((modelFitData m).design *ᵥ fun k => θ (Fin.natAdd N k))
        (logisticCoefs fun q => θ (Fin.castAdd m.design.length q)) r := by
    intro θ r
    rw [nested_same hiff, hV]
    rfl
  have hLL : ∀ θ : Fin (N + m.design.length) → ℝ, D.nestedLogLik ridge g V θ =
      Spec.nestedLogLik f g c (modelFitData m).design none ridge (θ ∘ twoParts N m.design.length) := by
    intro θ
    unfold LongData.nestedLogLik Spec.nestedLogLik
    have := sum_choice hone fun r => Real.log (D.nestedProb g V θ r)
    simp only [Option.getD_none, one_mul]
    refine congrArg₂ (· - ·) (this.trans ?_) rfl
    refine Finset.sum_congr rfl fun o _ => ?_
    exact congrArg Real.log (hprob θ (c o))
  have hlack : ∀ o q, q ∉ availNests f g o ↔
      D.Lacks g ((originalOrderUniqueIds (m.data.colList m.args.obsIdCol)).get o) q := by
    intro o q
    rw [mem_availNests]
    simp only [LongData.Lacks, LongData.rows, Finset.mem_filter, Finset.mem_univ, true_and]
    push Not
    refine forall_congr' fun r => ?_
    rw [hiff]
    rfl
  refine ⟨fun con θ => ?_, fun con θ => ?_, fun con θ => ?_, fun θ => ?_⟩
  · rw [hLL]
    exact nestedEstimator_loglik hM' hQ hone' ridge
      ((con.map fun l => l.map (twoParts N m.design.length).symm)) (θ ∘ twoParts N m.design.length)
  · have h := partials_reindex (twoParts N m.design.length) (x := θ)
      (nested_partials hM' hQ hone' ridge (con.map fun l => l.map (twoParts N m.design.length).symm)
        (θ ∘ twoParts N m.design.length))
    rw [show D.nestedLogLik ridge g V = _ from funext hLL]
    intro i
    refine (h i).congr_deriv ?_
    refine congrArg₂ (· - ·) rfl ?_
    refine Fin.addCases (fun q => ?_) (fun j => ?_) i
    · have e : (twoParts N m.design.length).symm (Fin.castAdd m.design.length q) = .inl q :=
        finSumFinEquiv_symm_apply_castAdd q
      rw [e]
      simp only [emptyNestOffset, penaltyGradient, naturalize_eq_logistic, LongData.nestedExcess, Fin.addCases_left,
        Sum.elim_inl]
      refine congrArg₂ (· + ·) (congrArg₂ (· * ·) rfl ?_) rfl
      rw [Finset.sum_const, nsmul_eq_mul, mul_one]
      refine congrArg Nat.cast ?_
      have e2 : ((originalOrderUniqueIds (m.data.colList m.args.obsIdCol)).filter fun i =>
          @decide (D.Lacks g i q) (Classical.propDecidable _)).length =
          (D.ids.filter fun i => @decide (D.Lacks g i q) (Classical.propDecidable _)).length := by
        rw [ids_eq hs hids]
        rfl
      refine Eq.trans ?_ e2
      rw [← count_positions]
      congr 1
      ext o
      simp only [Finset.mem_filter, Finset.mem_univ, true_and, hlack]
      simp
    · have e : (twoParts N m.design.length).symm (Fin.natAdd N j) = .inr j :=
        finSumFinEquiv_symm_apply_natAdd j
      rw [e]
      simp only [emptyNestOffset, penaltyGradient, LongData.nestedExcess, Fin.addCases_right, Sum.elim_inr]
      ring
  · exact SymmBelow.reindex (mask_below (nested_bhhh_below hM' ridge _ hobs) _) _
  · refine ⟨fun r i => nestedScores (fun m => θ (Fin.castAdd _ m)) (fun k => θ (Fin.natAdd N k)) (modelFitData m).design
      (modelFitData m).choice (modelFitData m).rowsToObs Q true (f r) ((twoParts N m.design.length).symm i),
      fun r hr => ?_, fun con i j => ?_⟩
    · have hrc : r = c (f r) := by
        by_contra hne
        have h0 : m.data.val m.args.choiceCol r = 0 := hone.zero r hne
        have h1 : m.data.val m.args.choiceCol r = 1 := hr
        rw [h0] at h1
        exact zero_ne_one h1
      have h := partials_reindex (twoParts N m.design.length) (x := θ)
        (nested_score_exact hM' hQ hone' (modelFitData m).design (θ ∘ twoParts N m.design.length) (f r))
      have e : (fun θ => Real.log (D.nestedProb g V θ r)) = fun y : Fin (N + m.design.length) → ℝ =>
          nestedChoiceLog f g c (modelFitData m).design (f r) (y ∘ twoParts N m.design.length) := by
        funext y
        refine (congrArg Real.log (hprob y r)).trans ?_
        rw [nestedChoiceLog, ← hrc]
        rfl
      rw [e]
      intro i
      refine (h i).congr_deriv ?_
      refine congrArg₂ (· - ·) rfl ?_
      refine Fin.addCases (fun q => ?_) (fun j => ?_) i
      · have e : (twoParts N m.design.length).symm (Fin.castAdd m.design.length q) = .inl q :=
          finSumFinEquiv_symm_apply_castAdd q
        rw [e]
        simp only [LongData.nestedScoreExcess, Fin.addCases_left, Sum.elim_inl]
        have := hlack (f r) q
        rw [← (hiff r (f r)).1 rfl] at this
        by_cases hq : q ∈ availNests f g (f r)
        · rw [if_pos hq]
          exact (if_neg fun h => (this.2 h) hq).symm
        · rw [if_neg hq]
          exact (if_pos (this.1 hq)).symm
      · have e : (twoParts N m.design.length).symm (Fin.natAdd N j) = .inr j :=
          finSumFinEquiv_symm_apply_natAdd j
        rw [e]
        simp [LongData.nestedScoreExcess, Fin.addCases_right]
    · have h := nested_bhhh_entries (Q := Q) hM' ridge (θ ∘ twoParts N m.design.length) hobs
        ((twoParts N m.design.length).symm i) ((twoParts N m.design.length).symm j)
      have h2 := mask_apply (calcNestedBHHH (fun m => θ (Fin.castAdd _ m)) (fun k => θ (Fin.natAdd N k))
        (modelFitData m).design (modelFitData m).choice (modelFitData m).rowsToObs Q ridge (estWeights none) true)
        (con.map fun l => l.map (twoParts N m.design.length).symm)
        ((twoParts N m.design.length).symm i) ((twoParts N m.design.length).symm j)
      refine h2.trans ?_
      have hmem : ∀ i, (twoParts N m.design.length).symm i ∈
          (con.map fun l => l.map (twoParts N m.design.length).symm).getD [] ↔ i ∈ con.getD [] := by
        intro i
        cases con <;> simp
      simp only [hmem, EmbeddingLike.apply_eq_iff_eq]
      refine if_congr Iff.rfl rfl (h.trans ?_)
      simp only [EmbeddingLike.apply_eq_iff_eq]
      refine congrArg₂ (· - ·) (congrArg Neg.neg ?_) rfl
      refine Eq.trans ?_ (sum_choice hone _).symm
      simp only [hone.mem]
      rfl

end Table

theorem built_nestSpec {env : Env ℝ} {ty : String} {df : Frame ℝ} {a : ModelArgs ℝ} {m : ChoiceModel ℝ}
    (h : createChoiceModel env ty df a = .ok m) (hm : m.cls = .nested) : m.args.nestSpec = a.nestSpec := by
  unfold createChoiceModel at h
  split at h
  · cases h
  rename_i cls _
  rw [classInit_iff] at h
  obtain ⟨-, h⟩ := h
  obtain ⟨-, h2⟩ := baseInit_ok.1 h
  obtain ⟨-, -, d, hd, -, rfl⟩ := initBuild_iff.1 h2
  cases cls <;> simp_all [argsFor]

private lemma take_getD {N k : ℕ} (θ : Fin (N + k) → ℝ) (q : Fin N) :
    ((List.ofFn θ).take N).getD q 0 = θ (Fin.castAdd k q) := by
  rw [List.getD_eq_getElem?_getD, List.getElem?_take_of_lt q.2, List.getElem?_ofFn]
  simp [show q.val < N + k by omega]
  rfl

private lemma drop_getD {N k : ℕ} (θ : Fin (N + k) → ℝ) (i : Fin k) :
    ((List.ofFn θ).drop N).getD i 0 = θ (Fin.natAdd N i) := by
  rw [List.getD_eq_getElem?_getD, List.getElem?_drop, List.getElem?_ofFn]
  simp
  rfl

/-- The probabilities a fit of a nested logit model ends with. -/
theorem nested_fit_probs {m : ChoiceModel ℝ} {ns : List (String × List ℝ)} {g : Fin m.data.numRows → Fin ns.length}
    (hrtn : m.data.rowsToNests m.args.altIdCol ns = .ok (Matrix.of fun r j => if g r = j then 1 else 0))
    (ids : List ℝ) {V : (Fin m.design.length → ℝ) → Fin m.data.numRows → ℝ}
    (hV : ∀ β, (modelFitData m).design *ᵥ β = V β) (θ : Fin (ns.length + m.design.length) → ℝ) :
    ∃ c, fitNestedProbs m ns (List.ofFn θ) = .ok (c, (tableOf m ids).nestedProb g V θ) ∧
      ∀ o, c o = ∑ q with m.data.val m.args.obsIdCol q =
        (originalOrderUniqueIds (m.data.colList m.args.obsIdCol)).get o,
          m.data.val m.args.choiceCol q * (tableOf m ids).nestedProb g V θ q := by
  have hsz : ¬ (((List.ofFn θ).take ns.length).length ≠ ns.length ∨
      m.design.length ≠ ((List.ofFn θ).drop ns.length).length) := by
    simp
  obtain ⟨f, hf, hiff⟩ := m.data.rowsToObs_indicates m.args.obsIdCol
  have hlong : nestedLongProbs (naturalizeNestCoefs fun j : Fin ns.length => ((List.ofFn θ).take ns.length).getD j 0)
      (fun k : Fin m.design.length => ((List.ofFn θ).drop ns.length).getD k 0)
      (Matrix.of fun r (k : Fin m.design.length) => m.design[k] r) (m.data.rowsToObs m.args.obsIdCol)
      (Matrix.of fun r j => if g r = j then 1 else 0) = (tableOf m ids).nestedProb g V θ := by
    funext r
    rw [nestedLongProbs_eq hf (g := g) (fun r j => by rfl) (naturalize_pos _), naturalize_eq_logistic, nested_same hiff]
    have e1 : (fun j : Fin ns.length => ((List.ofFn θ).take ns.length).getD j 0) =
        fun j => θ (Fin.castAdd m.design.length j) := funext fun j => take_getD θ j
    have e2 : (fun k : Fin m.design.length => ((List.ofFn θ).drop ns.length).getD k 0) = indexPart θ :=
      funext fun k => drop_getD θ k
    rw [e1, e2]
    have e3 : (Matrix.of fun r (k : Fin m.design.length) => m.design[k] r) *ᵥ indexPart θ = V (indexPart θ) :=
      hV (indexPart θ)
    rw [e3]
    rfl
  refine ⟨nestedChosenProbs (naturalizeNestCoefs fun j : Fin ns.length => ((List.ofFn θ).take ns.length).getD j 0)
      (fun k : Fin m.design.length => ((List.ofFn θ).drop ns.length).getD k 0)
      (Matrix.of fun r (k : Fin m.design.length) => m.design[k] r) (m.data.rowsToObs m.args.obsIdCol)
      (Matrix.of fun r j => if g r = j then 1 else 0)
      (Matrix.of fun r o => m.data.rowsToObs m.args.obsIdCol r o * m.data.val m.args.choiceCol r), ?_, ?_⟩
  · simp only [fitNestedProbs, hrtn, bind, Except.bind, if_neg hsz, calcNestedProbs]
    simp only [List.mem_cons, String.reduceEq, List.not_mem_nil, or_false, or_true, not_true_eq_false, if_false,
      Option.isNone_some, Bool.false_and, Bool.false_eq_true, Option.map_some]
    rw [hlong]
  · intro o
    simp only [nestedChosenProbs, hlong, mulVec, dotProduct, transpose_apply, Matrix.of_apply, Finset.sum_filter]
    refine Finset.sum_congr rfl fun r _ => ?_
    rw [hf r o]
    simp only [hiff]
    split_ifs <;> simp

theorem reindex_positions {P : Type} {n : ℕ} (e : P ≃ Fin n) (ps : Option (List (Fin n))) :
    (ps.map fun l => l.map e.symm).map (fun l => l.map e) = ps := by
  cases ps <;> simp [Function.comp_def]

private lemma neg_one_submatrix {P : Type} [DecidableEq P] {n : ℕ} (e : P ≃ Fin n) :
    (-1 : Matrix P P ℝ).submatrix e.symm e.symm = -1 := by
  ext i j
  simp [Matrix.submatrix_apply, Matrix.neg_apply, Matrix.one_apply]

private lemma nested_run {solver : Solver} {m : ChoiceModel ℝ} {ns : List (String × List ℝ)} {a : FitArgs}
    {r : FitResults} (h : nestedFit solver m ns a = .ok r) :
    ∃ (x : List ℝ) (rtn : _) (hrows : 0 < m.data.numRows), a.init = ⟨some x, none, none, none⟩ ∧
      m.data.rowsToNests m.args.altIdCol ns = .ok rtn ∧ x.length = ns.length + m.design.length ∧
      (m.data.colList m.args.obsIdCol).Pairwise (· ≤ ·) ∧
      runEstimationWith solver m (nestedObject m hrows rtn a.ridge) (fitNestedProbs m ns)
        (some (finalConstrainedPos ns a.constrained)) x = .ok r := by
  unfold nestedFit at h
  simp only [bind, Except.bind] at h
  split at h
  · cases h
  rename_i x hx
  split at h
  · cases h
  rename_i rtn hrtn
  split at h
  · cases h
  rename_i u hu
  split at h
  · cases h
  rename_i u' hu'
  split at h
  · rename_i hrows
    refine ⟨x, rtn, hrows, ?_, hrtn, ?_, ?_, h⟩
    · revert hx
      generalize a.init = i
      obtain ⟨v, sh, ic, co⟩ := i
      cases v <;> cases sh <;> cases ic <;> cases co <;> simp [initPlain]
    · unfold checkInitLength at hu'
      split_ifs at hu' with hl
      simp only [assumedParamDimensions, fitDims] at hl
      omega
    · unfold estimationChecks at hu
      simp only [bind, Except.bind] at hu
      split at hu
      · cases hu
      split at hu
      · cases hu
      rename_i u1 hu1
      exact ensureContiguity_ok.1 hu1
  · cases h

/-! ## C110: what `fit_mle` of a nested logit reports -/

/-- **C110**. Build a nested logit model on a table in which every observation chose one row, fit it any number of
times, and let one fit store its results without an exception, after which no other does. Whatever the optimiser is -
as long as it reports the value of its objective where it stops - the attributes of the model then say what they
should about the table: there is one parameter per nest, under its name, and one per described column, under the
model's names; if the optimiser minimises, the parameters maximise the log-likelihood; log-likelihood, rho-squares, AIC, BIC, counts, fitted probabilities, residuals and
chi-squares are those of the parameters reported; with a ridge penalty that is not negative, all variances are
positive, and standard errors, t- and p-values are those of the stored Hessian, except for fixed parameters; and
predicting the table gives the fitted probabilities.  The optimiser was started at the vector given, with the
parameters of nests of one alternative and those the user listed held fixed.  Missing from what one expects: the null log-likelihood is that of
nest and index parameters zero, and not of equal shares; the gradient and the scores the Hessian is made of have an
excess at the nest parameters; and the stored Fisher information is minus the identity. -/
theorem nested_fit_report_partial {env : Env ℝ} {ty : String} {df : Frame ℝ} {a : ModelArgs ℝ} {m : ChoiceModel ℝ}
    (hm : createChoiceModel env ty df a = .ok m) (hcls : m.cls = .nested) {ns : List (String × List ℝ)}
    (hns : a.nestSpec = some (encodeNests ns)) (hk : (ns.map Prod.fst).Nodup) {s : List (String × SpecVal ℝ)}
    (hspec : m.args.specification = encodeAll s) {alts ids : List ℝ} (ha : AltsOf m.data m.args.altIdCol alts)
    (hids : AltsOf m.data m.args.obsIdCol ids) {chosen : ℝ → Fin m.data.numRows}
    (hc : OneChoicePerObs m.data m.args.obsIdCol m.args.choiceCol chosen)
    {g : Fin m.data.numRows → Fin ns.length} (hg : ∀ r, m.data.val m.args.altIdCol r ∈ (ns.get (g r)).2)
    {solver : Solver} (hsol : FaithfulSolver solver) (label : PyVal ℝ → String) (sf : ℝ → ℝ)
    (before after : List FitCall) (args : FitArgs) (hpoint : args.justPoint = false)
    (hst : (fitCall sf (nestedFitCall solver m ns args) (fitCalls sf before (freshFit label m))).2 = none)
    (hafter : ∀ d ∈ after, ∀ r, d.outcome ≠ .results r) :
    let t := (fitCalls sf (before ++ nestedFitCall solver m ns args :: after) (freshFit label m)).attrs
    let D := tableOf m ids
    ∃ (k : ℕ) (x : Fin (ns.length + k) → ℝ) (labels : Fin (ns.length + k) → String) (con : List ℤ)
      (H : Matrix (Fin (ns.length + k)) (Fin (ns.length + k)) ℝ),
      let V := fun (β : Fin k → ℝ) r => rowIndex m.data m.args.altIdCol (specColumns alts s) (List.ofFn β) r
      k = (specColumns alts s).length ∧
      List.ofFn labels = (ns.map fun n => label (.str n.1)) ++ m.indVarNames.map label ∧
      NestedFixed ns args.constrained con ∧
      (∃ x₀, args.init.vals = some x₀ ∧ OptimiserReport solver x₀ (some con) (D.nestedLogLik args.ridge g V)
        (fun _ => True) (D.nestedExcess args.ridge g) x H t) ∧
      FitStatistics D (D.nestedLogLik args.ridge g V x) (D.nestedLogLik args.ridge g V fun _ => 0) labels x t ∧
      FitProbabilities D (D.nestedProb g V x) t ∧
      (MinimisingSolver solver → ∀ y, D.nestedLogLik args.ridge g V y ≤ D.nestedLogLik args.ridge g V x) ∧
      NestedDerivatives D args.ridge g V con labels x H t ∧
      (0 ≤ args.ridge.getD 0 → InferenceReport sf labels (some con) x H (-1) t) ∧
      NestedReproduces env m ns t df := by
  intro t D
  obtain ⟨r, hr⟩ : ∃ r, (nestedFitCall solver m ns args).outcome = .results r := by
    unfold nestedFitCall at hst ⊢
    rw [hpoint] at hst ⊢
    cases hf : nestedFit solver m ns args with
    | error e => simp [hf, fitOutcome, fitCall] at hst
    | ok r => exact ⟨r, by simp [fitOutcome]⟩
  obtain ⟨x₀, rtn, hrows, hx₀, hrtn, hxl, hasc, hrun⟩ := nested_run (outcome_ok hr)
  obtain ⟨-, g', hg', hgi, hrtn'⟩ := built_nests hm hcls hns hk
  obtain rfl : g = g' := funext fun r => ((hgi r (g r)).2 (hg r)).symm
  rw [hrtn'] at hrtn
  cases hrtn
  have hdes := (built_own hm).1.design
  rw [hspec] at hdes
  have hcols : m.design = (specColumns alts s).map fun d => d.value m.data m.args.altIdCol := design_entries ha hdes
  have hlen : m.design.length = (specColumns alts s).length := by rw [hcols, List.length_map]
  set V : (Fin m.design.length → ℝ) → Fin m.data.numRows → ℝ :=
    fun β r => rowIndex m.data m.args.altIdCol (specColumns alts s) (List.ofFn β) r with hVdef
  have hV : ∀ β, (modelFitData m).design *ᵥ β = V β := fun β => funext fun r => design_dot hcols β r
  set obj := nestedObject m hrows (Matrix.of fun r j => if g r = j then (1 : ℝ) else 0) args.ridge with hobj
  obtain ⟨f1, f2, f3, f4⟩ := nested_facts (m := m) hrows (g := g)
    (Q := Matrix.of fun r j => if g r = j then 1 else 0) (fun r j => by rfl) hc hasc hids args.ridge hV
  obtain ⟨ht, ht2⟩ := fits_latest sf before after _ r (freshFit label m) hr hst hafter
  have hst' : storeFitResults sf r (freshFit label m).attrs = (t, none) := Prod.ext ht.symm ht2
  unfold runEstimationWith at hrun
  simp only [bind, Except.bind] at hrun
  split at hrun
  · cases hrun
  rename_i ps hps
  split at hrun
  · cases hrun
  rename_i rep hrep
  obtain ⟨c, hpr, hcsum⟩ := nested_fit_probs hrtn' ids hV rep.x
  have hpr' : fitNestedProbs m ns (List.ofFn rep.x) = .ok (c, D.nestedProb g V rep.x) := hpr
  rw [hpr'] at hrun
  simp only [Except.ok.injEq] at hrun
  have hL : ∀ θ, (obj.est ps).logLik θ = D.nestedLogLik args.ridge g V θ := f1 ps
  have hfin : -1 * rep.fun_ = D.nestedLogLik args.ridge g V rep.x := by
    rw [hsol _ _ _ _ _ hrep, constrained_gradient_fst, hL]
    ring
  have hnull : (obj.est ps).logLik (fun _ => 0) = D.nestedLogLik args.ridge g V fun _ => 0 := hL _
  have hspec' : m.args.nestSpec = some (encodeNests ns) := (built_nestSpec hm hcls).trans hns
  have hdim : (fitDims m).numNests = ns.length := by
    simp [fitDims, nameCount, hspec', encodeNests]
  have hsplit : splitParamVec m.cls (fitDims m) (List.ofFn rep.x) = splitNested ns.length (List.ofFn rep.x) := by
    rw [hcls, ← hdim]; rfl
  have hfit : NestedFittedAt m ns (List.ofFn rep.x) r := by
    subst hrun
    exact ⟨hsplit, _, _, hpr', rfl, rfl⟩
  have hsp : r.split = ⟨some ((List.ofFn rep.x).take ns.length), none, none, (List.ofFn rep.x).drop ns.length⟩ :=
    hfit.split
  have hall : allParams r = List.ofFn rep.x := by
    rw [allParams, hsp]
    simp
  obtain ⟨r1, r2, r3⟩ := residual_lists hasc hids (D.nestedProb g V rep.x)
  have r4 := obs_list hasc hids hcsum
  have hnames : allNames r (addMixingNames (freshFit label m).attrs.names) =
      (ns.map fun n => label (.str n.1)) ++ m.indVarNames.map label := by
    have hmix : m.args.mixingVars = none := built_mixing hm (by rw [hcls]; decide)
    rw [allNames, hsp]
    simp [optionalLabels, optionalNames, addMixingNames, freshFit, modelNames, hmix, hspec', encodeNests]
  have hrepr : NestedReproduces env m ns t df := predict_reproduces_nested_fit hm (by rw [hcls]; decide) ns sf before
    after _ r _ _ hr hfit hst hafter
  clear hfit hsp ht ht2 hr
  subst hrun
  obtain ⟨labels, hlab, h1, h2, h3, h5, h6, -, -, -, -, -, h4⟩ := store_reports (D := D)
    (p := D.nestedProb g V rep.x) hst' rep.x hall rfl
    (by simp [estimate, rhoBarSquared]) (by
      show ((List.ofFn _).map _).length = ids.length
      rw [r4, List.length_map])
  have hfixed : NestedFixed ns args.constrained (finalConstrainedPos ns args.constrained) := by
    intro z
    rw [(constrained_positions ns args.constrained).1 z]
    refine or_congr Iff.rfl ?_
    cases args.constrained <;> simp
  refine ⟨m.design.length, rep.x, labels, finalConstrainedPos ns args.constrained, (obj.est ps).hessian rep.x, hlen,
    hlab.trans hnames, hfixed,
    ⟨x₀, by rw [hx₀], optimiser_report hps (reindex_positions _ ps) hL (fun θ _ => f2 ps θ) hxl hrep h5 h6⟩, ?_, ?_, fun hmin y => ?_, ?_,
    fun hρ => ?_, hrepr⟩
  · have h1' : FitStatistics D (-1 * rep.fun_) ((obj.est ps).logLik fun _ => 0) labels rep.x t := h1
    rwa [hfin, hnull] at h1'
  · exact h2 List.map_ofFn r4 r1 r2 r3
  · have hval : ∀ θ, ((obj.est ps).negLLAndGrad θ).1 = -D.nestedLogLik args.ridge g V θ := fun θ => by
      rw [constrained_gradient_fst, hL]
    have h7 := hmin _ _ _ _ _ hrep y
    have h8 : -D.nestedLogLik args.ridge g V rep.x ≤ -D.nestedLogLik args.ridge g V y :=
      (hval rep.x).symm.le.trans (h7.trans (hval y).le)
    linarith
  · obtain ⟨S, hS, hH⟩ := f4 rep.x
    classical
    refine ⟨⟨_, h3, f2 ps rep.x⟩, S, hS, fun i j => ?_⟩
    have hmem : (i ∈ ps.getD [] ∨ j ∈ ps.getD []) ↔ ∃ z ∈ finalConstrainedPos ns args.constrained,
        PosIs (ns.length + m.design.length) z i ∨ PosIs (ns.length + m.design.length) z j := by
      refine (or_congr (constrainedArg_mem hps i) (constrainedArg_mem hps j)).trans ?_
      simp only [Option.getD_some, ← exists_or, ← and_or_left]
      rfl
    refine (hH ps i j).trans ?_
    by_cases h9 : i ∈ ps.getD [] ∨ j ∈ ps.getD []
    · exact (if_pos h9).trans (if_pos (hmem.1 h9)).symm
    · exact (if_neg h9).trans (if_neg fun h => h9 (hmem.2 h)).symm
  · have hF : obj.fisher rep.x = -1 := neg_one_submatrix (twoParts _ _)
    have h10 : InferenceReport sf labels (some (finalConstrainedPos ns args.constrained)) rep.x
        ((obj.est ps).hessian rep.x) (obj.fisher rep.x) t := h4 ((f3 ps rep.x).nsd (le_min (by linarith) zero_le_one)) (constrainedArg_ok hps)
    exact hF ▸ h10

/-- **C110** (when the gradient is right). The stored gradient has no excess at the coefficients of the index; and none at
all without a ridge penalty, if every observation has a row in every nest. -/
theorem nested_excess_none {N k : ℕ} (D : LongData) (ridge : Option ℝ) (g : Fin D.df.numRows → Fin N)
    (θ : Fin (N + k) → ℝ) :
    (∀ i, D.nestedExcess ridge g θ (Fin.natAdd N i) = 0) ∧
    ((∀ i ∈ D.ids, ∀ q, ∃ r ∈ D.rows i, g r = q) → ridge.getD 0 = 0 → D.nestedExcess ridge g θ = fun _ => 0) := by
  refine ⟨fun i => by simp [LongData.nestedExcess], fun h h0 => funext fun i => ?_⟩
  refine Fin.addCases (fun q => ?_) (fun j => ?_) i
  · have e : (D.ids.filter fun i => @decide (D.Lacks g i q) (Classical.propDecidable _)) = [] := by
      rw [List.filter_eq_nil_iff]
      intro i hi
      obtain ⟨r, hr, hq⟩ := h i hi q
      simp only [decide_eq_true_eq]
      exact fun hl => hl r hr hq
    simp only [LongData.nestedExcess, Fin.addCases_left, h0, zero_mul, add_zero]
    rw [e]
    simp
  · simp [LongData.nestedExcess]

/-- **C110** (no robust inference). After such a fit, with a ridge penalty that is not negative, all robust standard
errors, t-values and p-values are NaN: the placeholder for the Fisher information makes every robust variance
negative. -/
theorem nested_robust_nan {env : Env ℝ} {ty : String} {df : Frame ℝ} {a : ModelArgs ℝ} {m : ChoiceModel ℝ}
    (hm : createChoiceModel env ty df a = .ok m) (hcls : m.cls = .nested) {ns : List (String × List ℝ)}
    (hns : a.nestSpec = some (encodeNests ns)) (hk : (ns.map Prod.fst).Nodup) {s : List (String × SpecVal ℝ)}
    (hspec : m.args.specification = encodeAll s) {alts ids : List ℝ} (ha : AltsOf m.data m.args.altIdCol alts)
    (hids : AltsOf m.data m.args.obsIdCol ids) {chosen : ℝ → Fin m.data.numRows}
    (hc : OneChoicePerObs m.data m.args.obsIdCol m.args.choiceCol chosen)
    {solver : Solver} (hsol : FaithfulSolver solver) (label : PyVal ℝ → String) (sf : ℝ → ℝ)
    (before after : List FitCall) (args : FitArgs) (hpoint : args.justPoint = false) (hridge : 0 ≤ args.ridge.getD 0)
    (hst : (fitCall sf (nestedFitCall solver m ns args) (fitCalls sf before (freshFit label m))).2 = none)
    (hafter : ∀ d ∈ after, ∀ r, d.outcome ≠ .results r) :
    let t := (fitCalls sf (before ++ nestedFitCall solver m ns args :: after) (freshFit label m)).attrs
    ∃ labels : List String,
      t.robustStdErrs = some ⟨labels, labels.map fun _ => none⟩ ∧
      t.robustTStats = some ⟨labels, labels.map fun _ => none⟩ ∧
      t.robustPVals = some ⟨labels, labels.map fun _ => none⟩ := by
  intro t
  obtain ⟨-, g, hg, -, -⟩ := built_nests hm hcls hns hk
  obtain ⟨k, x, labels, con, H, -, -, -, -, -, -, -, hD, hI, -⟩ := nested_fit_report_partial hm hcls hns hk hspec ha
    hids hc hg hsol label sf before after args hpoint hst hafter
  have hI := hI hridge
  have hsymm : Hᵀ = H := by
    obtain ⟨S, -, hH⟩ := hD.hessian
    ext i j
    rw [transpose_apply, hH, hH]
    have e : (∃ z ∈ con, PosIs (ns.length + k) z j ∨ PosIs (ns.length + k) z i) ↔
        ∃ z ∈ con, PosIs (ns.length + k) z i ∨ PosIs (ns.length + k) z j := by
      simp only [or_comm]
    by_cases h : ∃ z ∈ con, PosIs (ns.length + k) z i ∨ PosIs (ns.length + k) z j
    · rw [if_pos h, if_pos (e.2 h)]
      simp only [eq_comm]
    · rw [if_neg h, if_neg fun h' => h (e.1 h')]
      simp only [mul_comm, eq_comm]
  have hneg : ∀ i, (H⁻¹ * (-1) * H⁻¹) i i < 0 := by
    intro i
    have h1 : (H⁻¹)ᵀ = H⁻¹ := by rw [Matrix.transpose_nonsing_inv, hsymm]
    have h2 : (H⁻¹ * (-1) * H⁻¹) i i = -∑ j, H⁻¹ i j ^ 2 := by
      rw [mul_neg, mul_one, neg_mul, Matrix.neg_apply, mul_apply]
      refine congrArg Neg.neg (Finset.sum_congr rfl fun j _ => ?_)
      rw [sq, show H⁻¹ j i = H⁻¹ i j from congrFun (congrFun h1 i) j]
    rw [h2, neg_lt_zero]
    have h3 : H⁻¹ * H = 1 := nonsing_inv_mul H hI.invertible
    refine lt_of_le_of_ne (Finset.sum_nonneg fun j _ => sq_nonneg _) fun h0 => ?_
    have h4 : ∀ j, H⁻¹ i j = 0 := fun j =>
      pow_eq_zero_iff (two_ne_zero) |>.1 ((Finset.sum_eq_zero_iff_of_nonneg fun j _ => sq_nonneg _).1 h0.symm j
        (Finset.mem_univ j))
    have h5 := congrFun (congrFun h3 i) i
    rw [mul_apply, one_apply_eq] at h5
    simp [h4] at h5
  obtain ⟨se, tv, pv, e1, e2, e3, h⟩ := hI.robust
  have h : ∀ i, se i = none ∧ tv i = none ∧ pv i = none := fun i => (h i).2.2 (hneg i)
  have key : ∀ v : Fin (ns.length + k) → Option ℝ, (∀ i, v i = none) →
      List.ofFn v = (List.ofFn labels).map fun _ => none := by
    intro v hv
    rw [List.map_ofFn]
    exact congrArg List.ofFn (funext hv)
  refine ⟨List.ofFn labels, ?_, ?_, ?_⟩
  · rw [e1, key se fun i => (h i).1]
  · rw [e2, key tv fun i => (h i).2.1]
  · rw [e3, key pv fun i => (h i).2.2]

theorem nested_accepts_of {env : Env ℝ} {ty : String} {df : Frame ℝ} {a : ModelArgs ℝ} {m : ChoiceModel ℝ}
    (hm : createChoiceModel env ty df a = .ok m) (hcls : m.cls = .nested) {ns : List (String × List ℝ)}
    (hns : a.nestSpec = some (encodeNests ns)) (hk : (ns.map Prod.fst).Nodup) {s : List (String × SpecVal ℝ)}
    (hspec : m.args.specification = encodeAll s) {alts : List ℝ} (ha : AltsOf m.data m.args.altIdCol alts)
    {solver : Solver} (args : FitArgs)
    (hsol : ∀ hrows rtn, m.data.rowsToNests m.args.altIdCol ns = .ok rtn → ∀ ps x,
      ∃ r, solver (nestedObject m hrows rtn args.ridge).n ((nestedObject m hrows rtn args.ridge).est ps).negLLAndGrad x
        ((nestedObject m hrows rtn args.ridge).est ps).negHessian = .ok r) :
    (∃ r, nestedFit solver m ns args = .ok r) ↔
      (∃ x : List ℝ, args.init = ⟨some x, none, none, none⟩ ∧ x.length = ns.length + (specColumns alts s).length) ∧
      (m.data.colList m.args.obsIdCol).Pairwise (· ≤ ·) ∧ 0 < m.data.numRows ∧
      ∀ z ∈ args.constrained.getD [], ∃ i, PosIs (ns.length + (specColumns alts s).length) z i := by
  have hlen : m.design.length = (specColumns alts s).length := by
    have hdes := (built_own hm).1.design
    rw [hspec] at hdes
    rw [show m.design = _ from design_entries ha hdes, List.length_map, specColumns]
  rw [← hlen]
  obtain ⟨-, g, -, -, hrtn⟩ := built_nests hm hcls hns hk
  have hfinal : (∀ z ∈ (some (finalConstrainedPos ns args.constrained)).getD [],
      ∃ i, PosIs (ns.length + m.design.length) z i) ↔
      ∀ z ∈ args.constrained.getD [], ∃ i, PosIs (ns.length + m.design.length) z i := by
    simp only [Option.getD_some, (constrained_positions ns args.constrained).1]
    constructor
    · intro h z hz
      refine h z (Or.inr ?_)
      cases hcon : args.constrained with
      | none => simp [hcon] at hz
      | some l => exact ⟨l, rfl, by simpa [hcon] using hz⟩
    · rintro h z (⟨q, rfl, name, alt, hq⟩ | ⟨l, hl, hz⟩)
      · obtain ⟨hq', -⟩ := List.getElem?_eq_some_iff.1 hq
        exact ⟨⟨q, by omega⟩, Or.inl rfl⟩
      · exact h z (by rw [hl]; exact hz)
  constructor
  · rintro ⟨r, hr⟩
    obtain ⟨x, rtn, hrows, hx, -, hxl, hasc, hrun⟩ := nested_run hr
    refine ⟨⟨x, hx, hxl⟩, hasc, hrows, ?_⟩
    unfold runEstimationWith at hrun
    simp only [bind, Except.bind] at hrun
    split at hrun
    · cases hrun
    rename_i ps hps
    exact hfinal.1 (constrainedArg_exists.1 ⟨ps, hps⟩)
  · rintro ⟨⟨x, hx, hxl⟩, hasc, hrows, hpos⟩
    obtain ⟨ps, hps⟩ := constrainedArg_exists.2 (hfinal.2 hpos)
    have h1 : initPlain args.init = .ok x := by
      rw [hx]; simp [initPlain]
    have h2 : estimationChecks (args.ridge.map PyVal.num) (m.data.colList m.args.obsIdCol) .none = .ok () := by
      unfold estimationChecks
      have : ensureContiguity (m.data.colList m.args.obsIdCol) = .ok () := ensureContiguity_ok.2 hasc
      cases args.ridge <;> simp [checkRidge, this, checkWeights, bind, Except.bind]
    have h3 : checkInitLength .nested { fitDims m with numNests := ns.length } false x = .ok () := by
      simp [checkInitLength, assumedParamDimensions, fitDims, hxl, add_comm]
    unfold nestedFit
    simp only [bind, Except.bind, h1, h2, h3, hrtn, hrows, dif_pos]
    unfold runEstimationWith
    obtain ⟨rep, hrep⟩ := hsol hrows _ hrtn ps fun k => x.getD k 0
    obtain ⟨c, hpr, -⟩ := nested_fit_probs hrtn [] (V := fun β => (modelFitData m).design *ᵥ β) (fun β => rfl) rep.x
    have hps' : constrainedArg (nestedObject m hrows (Matrix.of fun r j => if g r = j then 1 else 0) args.ridge).n
        (some (finalConstrainedPos ns args.constrained)) = .ok ps := hps
    have hpr' : fitNestedProbs m ns (List.ofFn rep.x) = _ := hpr
    simp only [bind, Except.bind, hps', hrep, hpr']
    exact ⟨_, rfl⟩

/-- **C110** (which fits get results). With an optimiser that always returns, a fit of a nested logit model gets to its
results exactly when it was given a vector of starting values with one value per nest and one per described column,
and none of the keywords for other models; the ids of the table, which has rows, ascend; and every position to be
held fixed exists. -/
theorem nested_fit_accepts {env : Env ℝ} {ty : String} {df : Frame ℝ} {a : ModelArgs ℝ} {m : ChoiceModel ℝ}
    (hm : createChoiceModel env ty df a = .ok m) (hcls : m.cls = .nested) {ns : List (String × List ℝ)}
    (hns : a.nestSpec = some (encodeNests ns)) (hk : (ns.map Prod.fst).Nodup) {s : List (String × SpecVal ℝ)}
    (hspec : m.args.specification = encodeAll s) {alts : List ℝ} (ha : AltsOf m.data m.args.altIdCol alts)
    {solver : Solver} (hsol : ∀ n f x h, ∃ r, solver n f x h = .ok r) (args : FitArgs) :
    (∃ r, nestedFit solver m ns args = .ok r) ↔
      (∃ x : List ℝ, args.init = ⟨some x, none, none, none⟩ ∧ x.length = ns.length + (specColumns alts s).length) ∧
      (m.data.colList m.args.obsIdCol).Pairwise (· ≤ ·) ∧ 0 < m.data.numRows ∧
      ∀ z ∈ args.constrained.getD [], ∃ i, PosIs (ns.length + (specColumns alts s).length) z i :=
  nested_accepts_of hm hcls hns hk hspec ha args fun _ _ _ _ _ => hsol _ _ _ _

/-- **C110** (which fits are stored). A fit of a nested logit model that got to its results stores them without an
exception exactly when the matrix in place of its Hessian is invertible - always, with a positive ridge penalty or
when all parameters are held fixed. -/
theorem nested_fit_stores {env : Env ℝ} {ty : String} {df : Frame ℝ} {a : ModelArgs ℝ} {m : ChoiceModel ℝ}
    (hm : createChoiceModel env ty df a = .ok m) (hcls : m.cls = .nested) {ns : List (String × List ℝ)}
    (hns : a.nestSpec = some (encodeNests ns)) (hk : (ns.map Prod.fst).Nodup) {s : List (String × SpecVal ℝ)}
    (hspec : m.args.specification = encodeAll s) (hkeys : (s.map Prod.fst).Nodup)
    (hnm : ∀ ns, m.args.names = some ns → (ns.map Prod.fst).Nodup)
    {alts ids : List ℝ} (ha : AltsOf m.data m.args.altIdCol alts) (hids : AltsOf m.data m.args.obsIdCol ids)
    {chosen : ℝ → Fin m.data.numRows} (hc : OneChoicePerObs m.data m.args.obsIdCol m.args.choiceCol chosen)
    {solver : Solver} (label : PyVal ℝ → String) (sf : ℝ → ℝ) (before : List FitCall) (args : FitArgs)
    (hpoint : args.justPoint = false) {r : FitResults} (hr : nestedFit solver m ns args = .ok r) :
    ((fitCall sf (nestedFitCall solver m ns args) (fitCalls sf before (freshFit label m))).2 = none ↔
      IsUnit r.hessian.det) ∧
    (0 < args.ridge.getD 0 → IsUnit r.hessian.det) ∧
    ((∀ i : Fin (ns.length + (specColumns alts s).length), (∃ name alt, ns[(i : ℕ)]? = some (name, [alt])) ∨
      ∃ z ∈ args.constrained.getD [], PosIs (ns.length + (specColumns alts s).length) z i) → IsUnit r.hessian.det) := by
  have hlen : m.design.length = (specColumns alts s).length := by
    have hdes := (built_own hm).1.design
    rw [hspec] at hdes
    rw [show m.design = _ from design_entries ha hdes, List.length_map, specColumns]
  rw [← hlen]
  obtain ⟨x₀, rtn, hrows, -, hrtn, hxl, hasc, hrun⟩ := nested_run hr
  obtain ⟨-, g, -, -, hrtn'⟩ := built_nests hm hcls hns hk
  rw [hrtn'] at hrtn
  cases hrtn
  obtain ⟨-, -, f3, f4⟩ := nested_facts (m := m) hrows (g := g)
    (Q := Matrix.of fun r j => if g r = j then 1 else 0) (fun r j => by rfl) hc hasc hids args.ridge
    (V := fun β => (modelFitData m).design *ᵥ β) (fun β => rfl)
  have hdes := (built_own hm).1.design
  rw [hspec] at hdes
  have hnames : m.indVarNames.length = m.design.length :=
    one_name_per_column (by simpa [encodeAll, Function.comp_def] using hkeys) hnm hdes
  have hmix : m.args.mixingVars = none := built_mixing hm (by rw [hcls]; decide)
  have hspec' : m.args.nestSpec = some (encodeNests ns) := (built_nestSpec hm hcls).trans hns
  have hdim : (fitDims m).numNests = ns.length := by
    simp [fitDims, nameCount, hspec', encodeNests]
  unfold runEstimationWith at hrun
  simp only [bind, Except.bind] at hrun
  split at hrun
  · cases hrun
  rename_i ps hps
  split at hrun
  · cases hrun
  rename_i rep hrep
  obtain ⟨c, hpr, -⟩ := nested_fit_probs hrtn' [] (V := fun β => (modelFitData m).design *ᵥ β) (fun β => rfl) rep.x
  have hpr' : fitNestedProbs m ns (List.ofFn rep.x) = _ := hpr
  rw [hpr'] at hrun
  simp only [Except.ok.injEq] at hrun
  have hpos := constrainedArg_exists.1 ⟨ps, hps⟩
  have hsplit : ∀ l : List ℝ, splitParamVec m.cls (fitDims m) l =
      ⟨some (l.take ns.length), none, none, l.drop ns.length⟩ := by
    intro l
    rw [hcls, ← hdim]; rfl
  refine ⟨?_, fun hρ => ?_, fun hall => ?_⟩
  · have hout : (nestedFitCall solver m ns args).outcome = .results r := by
      simp [nestedFitCall, fitOutcome, hr, hpoint]
    simp only [fitCall, hout]
    rw [store_fit_iff]
    refine ⟨fun h => h.regular, fun hu => ?_⟩
    refine storable_congr (fitCalls_names sf before (freshFit label m)).symm ?_
    subst hrun
    have hn : (List.ofFn rep.x).length = ns.length + m.design.length := List.length_ofFn
    constructor
    · intro p' g' h1 h3
      dsimp only at h1
      rw [hsplit] at h1
      have h3 : (m.args.nestSpec.map fun l => l.map fun kv => label kv.1) = some g' := h3
      cases h1
      rw [hspec'] at h3
      simp only [Option.map_some, Option.some.injEq] at h3
      rw [← h3, List.length_take, hn]
      simp [encodeNests]
    · intro p g h1; dsimp only at h1; rw [hsplit] at h1; cases h1
    · intro p g h1; dsimp only at h1; rw [hsplit] at h1; cases h1
    · dsimp only
      rw [hsplit]
      simp only [List.length_drop, hn]
      simp [addMixingNames, freshFit, modelNames, hmix, hnames]
    · dsimp only
      rw [hsplit]
      simp only [Option.getD_some, Option.getD_none, List.length_nil, List.length_drop, List.length_take, hn]
      show ns.length + m.design.length = _
      omega
    · exact hu
    · intro cs e pos hmem
      have e' : some (finalConstrainedPos ns args.constrained) = some cs := e
      rw [e'] at hpos
      obtain ⟨i, hi⟩ := hpos pos hmem
      have := i.2
      unfold PosIs at hi
      show -(((nestedObject m hrows (Matrix.of fun r j => if g r = j then (1 : ℝ) else 0) args.ridge).n : ℕ) : ℤ) ≤ pos ∧
        pos < ((nestedObject m hrows (Matrix.of fun r j => if g r = j then (1 : ℝ) else 0) args.ridge).n : ℕ)
      omega
  · subst hrun
    exact (f3 ps rep.x).regular (lt_min (by linarith) one_pos)
  · subst hrun
    obtain ⟨S, -, hH⟩ := f4 rep.x
    have e : ((nestedObject m hrows (Matrix.of fun r j => if g r = j then (1 : ℝ) else 0) args.ridge).est ps).hessian
        rep.x = -1 := by
      ext i j
      refine (hH ps i j).trans ?_
      have hmem : i ∈ ps.getD [] := by
        rw [constrainedArg_mem hps]
        rcases hall i with h | ⟨z, hz, hp⟩
        · exact ⟨(i : ℕ), ((constrained_positions ns args.constrained).1 _).2 (Or.inl ⟨i, rfl, h⟩), Or.inl rfl⟩
        · refine ⟨z, ((constrained_positions ns args.constrained).1 _).2 (Or.inr ?_), hp⟩
          cases hcon : args.constrained with
          | none => simp [hcon] at hz
          | some l => exact ⟨l, rfl, by simpa [hcon] using hz⟩
      refine (if_pos (Or.inl hmem)).trans ?_
      by_cases hij : i = j
      · subst hij
        exact (if_pos rfl).trans (by simp)
      · exact (if_neg hij).trans (by simp [hij])
    show IsUnit (Matrix.det (((nestedObject m hrows (Matrix.of fun r j => if g r = j then (1 : ℝ) else 0)
      args.ridge).est ps).hessian rep.x))
    rw [e, ← Matrix.isUnit_iff_isUnit_det]
    exact isUnit_one.neg

/-- **C110** (the penalty on record). A call of `fit_mle` that is given no keyword for other models leaves its ridge
penalty in the attribute of the model, whatever becomes of the fit. -/
theorem nested_fit_sets_ridge (solver : Solver) (m : ChoiceModel ℝ) (ns : List (String × List ℝ)) (sf : ℝ → ℝ)
    (s : FitState) (args : FitArgs)
    (_ : args.init.shapes = none ∧ args.init.intercepts = none ∧ args.init.coefs = none) :
    (fitCall sf (nestedFitCall solver m ns args) s).1.ridgeParam = args.ridge := by
  unfold fitCall
  split <;> rfl

/-! ## A concrete fit -/

/-- One observation with three alternatives, of which the last is chosen. -/
def exThreeAlts : Frame ℝ where
  columns := ["obs", "alt", "x", "y"]
  numRows := 3
  val := fun c => if c = "alt" then ![1, 2, 3] else if c = "x" then ![1, 2, 5] else if c = "y" then ![0, 0, 1]
    else ![1, 1, 1]

/-- The first two alternatives are in one nest. -/
def exPairNests : List (String × List ℝ) := [("pair", [1, 2]), ("rest", [3])]

def exPairArgs : ModelArgs ℝ := { exLogitArgs with nestSpec := some (encodeNests exPairNests) }

private theorem exThree_lists : AltsOf exThreeAlts "alt" [1, 2, 3] ∧ AltsOf exThreeAlts "obs" [1] := by
  refine ⟨⟨by norm_num, fun x => ⟨?_, ?_⟩⟩, ⟨by simp, fun x => ⟨?_, ?_⟩⟩⟩
  · intro hx
    simp only [List.mem_cons, List.not_mem_nil, or_false] at hx
    rcases hx with rfl | rfl | rfl
    · exact ⟨(0 : Fin 3), rfl⟩
    · exact ⟨(1 : Fin 3), rfl⟩
    · exact ⟨(2 : Fin 3), rfl⟩
  · rintro ⟨r, rfl⟩
    change Fin 3 at r
    fin_cases r <;> simp [exThreeAlts]
  · intro hx
    rw [List.mem_singleton.1 hx]
    exact ⟨(0 : Fin 3), rfl⟩
  · rintro ⟨r, rfl⟩
    change Fin 3 at r
    fin_cases r <;> simp [exThreeAlts]

private theorem exThree_built (env : Env ℝ) (henv : env.badCol = fun _ => false) (hint : env.isInt = fun _ => true) :
    ∃ d names, createChoiceModel env "Nested Logit" exThreeAlts exPairArgs =
      .ok ⟨.nested, displayNameOf (classOf .nested), exThreeAlts, d, names, exPairArgs, none⟩ := by
  obtain ⟨d, hd, hlen⟩ : ∃ d, createDesignMatrix env.fmt env.fmtList exThreeAlts
      (encodeAll [("x", SpecVal.allSame)]) "alt" none = .ok d ∧ d.1.length = 1 :=
    ⟨_, design_success env.fmt env.fmtList exThreeAlts [("x", .allSame)] "alt" [1, 2, 3] exThree_lists.1
      (by simp [exThreeAlts]) (by simp [exThreeAlts]) (by simp [SpecVal.ValidFor])
      (by simp [SpecVal.columns]), by simp [SpecVal.columns]⟩
  have hk : modelTypeToClass.lookup "Nested Logit" = some .nested := by decide
  have hadd : addIntercept (encodeAll [("x", (SpecVal.allSame : SpecVal ℝ))]) exThreeAlts = exThreeAlts := by
    simp [addIntercept, encodeAll]
  refine ⟨d.1, d.2, ?_⟩
  simp only [createChoiceModel, hk]
  rw [classInit_iff]
  refine ⟨by simp [exPairArgs, exLogitArgs], baseInit_ok.2 ⟨initChecks_ok.2 ⟨?_, ?_, ?_, ?_⟩, ?_⟩⟩
  · simp [exPairArgs, exLogitArgs, exThreeAlts, argsFor]
  · simp [exPairArgs, exLogitArgs, checkNamesAndRef, argsFor]
  · simp [exPairArgs, exLogitArgs, checkNamesAndRef, argsFor]
  · rw [checkNestSpecArg_ok (mem_allIds _ _)]
    rintro l hl
    refine ⟨exPairNests, (Option.some.inj hl).symm, ?_⟩
    have hcol : exThreeAlts.colList (argsFor .nested exPairArgs).altIdCol = [1, 2, 3] := by
      simp [Frame.colList, exThreeAlts, argsFor, exPairArgs, exLogitArgs]
    rw [hcol]
    exact ⟨by simp [exPairNests], by simp [exPairNests], by simp [hint],
      by simp [exPairNests], by simp [exPairNests]⟩
  · have : addIntercept (argsFor .nested exPairArgs).specification exThreeAlts = exThreeAlts :=
      hadd
    rw [this, initBuild_iff]
    refine ⟨?_, ?_, d, hd, ?_, rfl⟩
    · simp [exPairArgs, exLogitArgs, exThreeAlts, encodeAll, argsFor]
    · simp [henv]
    · simp [exPairArgs, exLogitArgs, argsFor]

private def exPairNest (r : Fin 3) : Fin 2 := ![0, 0, 1] r

private theorem exThree_null {k : ℕ} (V : (Fin k → ℝ) → Fin 3 → ℝ) (hV : ∀ r, V (fun _ => 0) r = 0) :
    (⟨exThreeAlts, "obs", "y", [1]⟩ : LongData).equalShares <
      (⟨exThreeAlts, "obs", "y", [1]⟩ : LongData).nestedLogLik none exPairNest V (fun _ => 0) := by
  have hlam : ∀ q : Fin 2, nestLambda (N := 2) (k := k) (fun _ => 0) q = 1 / 2 := by
    intro q
    simp [nestLambda]
    norm_num
  have hobs : exThreeAlts.val "obs" = (fun _ => 1 : Fin 3 → ℝ) := by
    funext r
    change Fin 3 at r
    fin_cases r <;> simp [exThreeAlts]
  have hsum : ∀ p : Fin 3 → ℝ, ∑ r : Fin 3, exThreeAlts.val "y" r * Real.log (p r) = Real.log (p 2) := by
    intro p
    refine (Fin.sum_univ_three _).trans ?_
    simp [exThreeAlts]
  have h1 : (⟨exThreeAlts, "obs", "y", [1]⟩ : LongData).equalShares = Real.log (1 / 3) := by
    have e : ∀ r, (⟨exThreeAlts, "obs", "y", [1]⟩ : LongData).rows (exThreeAlts.val "obs" r) = Finset.univ := by
      intro r
      have : ∀ r, exThreeAlts.val "obs" r = 1 := fun r => congrFun hobs r
      ext q
      simp [LongData.rows, this]
    have hc : (Finset.univ : Finset (Fin exThreeAlts.numRows)).card = 3 := rfl
    unfold LongData.equalShares
    simp only [e, hc]
    refine (hsum fun _ => 1 / ((3 : ℕ) : ℝ)).trans ?_
    norm_num
  have h2 : (⟨exThreeAlts, "obs", "y", [1]⟩ : LongData).nestedLogLik none exPairNest V (fun _ => 0) =
      Real.log (1 / (Real.sqrt 2 + 1)) := by
    have e0 : nestRows (fun _ : Fin 3 => (1 : ℝ)) exPairNest 1 0 = {0, 1} := by
      ext r
      fin_cases r <;> simp [nestRows, exPairNest]
    have e1 : nestRows (fun _ : Fin 3 => (1 : ℝ)) exPairNest 1 1 = {2} := by
      ext r
      fin_cases r <;> simp [nestRows, exPairNest]
    have e2 : availNests (fun _ : Fin 3 => (1 : ℝ)) exPairNest 1 = {0, 1} := by
      ext q
      fin_cases q <;> simp [availNests, e0, e1]
    have hp : Spec.nestedProb (fun _ : Fin 3 => (1 : ℝ)) exPairNest (V fun _ => 0)
        (nestLambda (N := 2) (k := k) fun _ => 0) 2 = 1 / (Real.sqrt 2 + 1) := by
      have e3 : exPairNest 2 = 1 := rfl
      simp only [Spec.nestedProb, nestProb, condProb, nestSum, e3, e1, e2, hV, hlam, zero_div, Real.exp_zero]
      rw [Finset.sum_pair (by decide), e0, e1, Finset.sum_pair (by decide), Finset.sum_singleton,
        show (1 : ℝ) + 1 = 2 by norm_num, Real.sqrt_eq_rpow]
      simp
    have h0 := hsum fun r => Spec.nestedProb (exThreeAlts.val "obs") exPairNest
      (V fun _ => 0) (nestLambda (N := 2) (k := k) fun _ => 0) r
    rw [hobs] at h0
    have h5 := h0.trans (congrArg Real.log hp)
    unfold LongData.nestedLogLik
    rw [Option.getD_none, zero_mul, sub_zero]
    exact h5
  rw [h1, h2]
  have h3 : Real.sqrt 2 < 2 := by
    rw [Real.sqrt_lt' (by norm_num)]
    norm_num
  have h4 := Real.sqrt_nonneg 2
  refine Real.log_lt_log (by norm_num) ?_
  exact one_div_lt_one_div_of_lt (by linarith) (by linarith)

/-- **C110** (disagreement: the null log-likelihood). The null log-likelihood of a nested logit fit is not that of equal
shares: here, without a ridge penalty, it is larger. Non-vacuity of `nested_fit_accepts`, `nested_fit_stores`,
`nested_fit_report_partial` and `nested_robust_nan`, too. -/
theorem nested_fit_null_not_equal_shares (env : Env ℝ) (henv : env.badCol = fun _ => false)
    (hint : env.isInt = fun _ => true) (label : PyVal ℝ → String) (sf : ℝ → ℝ) :
    ∃ m, createChoiceModel env "Nested Logit" exThreeAlts exPairArgs = .ok m ∧
      let c := nestedFitCall exStaying m exPairNests ⟨⟨some [3, 4, 5], none, none, none⟩, none, some [0, -1], false⟩
      (fitCall sf c (freshFit label m)).2 = none ∧
      ∃ L₀, (fitCall sf c (freshFit label m)).1.attrs.nullLL = some L₀ ∧ (tableOf m [1]).equalShares < L₀ := by
  obtain ⟨d, names, hm⟩ := exThree_built env henv hint
  refine ⟨_, hm, ?_⟩
  intro c
  set m : ChoiceModel ℝ := ⟨.nested, displayNameOf (classOf .nested), exThreeAlts, d, names, exPairArgs, none⟩ with hmd
  have hspec : m.args.specification = encodeAll [("x", .allSame)] := rfl
  have hc : OneChoicePerObs m.data m.args.obsIdCol m.args.choiceCol fun _ => (2 : Fin 3) := by
    refine ⟨?_, ?_, ?_⟩ <;> intro r <;> change Fin 3 at r <;> fin_cases r <;>
      simp [m, exThreeAlts, exPairArgs, exLogitArgs]
  have hcol : (specColumns [1, 2, 3] [("x", (SpecVal.allSame : SpecVal ℝ))]).length = 1 := by
    simp [specColumns, SpecVal.columns]
  have hg : ∀ r : Fin 3, m.data.val m.args.altIdCol r ∈ (exPairNests.get (exPairNest r)).2 := by
    intro r
    fin_cases r <;> simp [m, exThreeAlts, exPairArgs, exLogitArgs, exPairNests, exPairNest]
  obtain ⟨r, hr⟩ : ∃ r, nestedFit exStaying m exPairNests
      ⟨⟨some [3, 4, 5], none, none, none⟩, none, some [0, -1], false⟩ = .ok r := by
    refine (nested_fit_accepts hm rfl rfl (by simp [exPairNests]) hspec exThree_lists.1 (fun n f x h => ⟨_, rfl⟩) _).2
      ⟨⟨[3, 4, 5], rfl, ?_⟩, ?_, ?_, ?_⟩
    · simp [hcol, exPairNests]
    · simp [m, exThreeAlts, exPairArgs, exLogitArgs, Frame.colList]
    · simp [m, exThreeAlts]
    · intro z hz
      rcases List.mem_cons.1 hz with rfl | hz
      · exact ⟨(0 : Fin 3), Or.inl rfl⟩
      · obtain rfl := List.mem_singleton.1 hz
        exact ⟨(2 : Fin 3), Or.inr (by simp [exPairNests, hcol])⟩
  have hst : (fitCall sf c (freshFit label m)).2 = none := by
    obtain ⟨h1, -, h3⟩ := nested_fit_stores hm rfl rfl (by simp [exPairNests]) hspec (by simp)
      (by intro ns h; cases h) exThree_lists.1 exThree_lists.2 hc label sf [] _ rfl hr
    refine h1.2 (h3 fun i => ?_)
    rcases i with ⟨i, hi⟩
    simp only [hcol, exPairNests, List.length_cons, List.length_nil] at hi
    interval_cases i
    · exact Or.inr ⟨0, by simp, Or.inl rfl⟩
    · exact Or.inl ⟨"rest", 3, rfl⟩
    · exact Or.inr ⟨-1, by simp, Or.inr (by simp [exPairNests, hcol])⟩
  refine ⟨hst, ?_⟩
  obtain ⟨k, x, labels, con, H, hk, -, -, -, h1, -⟩ := nested_fit_report_partial hm rfl rfl (by simp [exPairNests])
    hspec exThree_lists.1 exThree_lists.2 hc hg exStaying_faithful label sf [] [] _ rfl hst (by simp)
  refine ⟨_, h1.nullLL, exThree_null _ fun r => ?_⟩
  simp only [rowIndex, List.ofFn_const]
  refine List.sum_eq_zero fun v hv => ?_
  obtain ⟨p, hp, rfl⟩ := List.mem_map.1 hv
  rw [(List.mem_replicate.1 (List.of_mem_zip hp).2).2, mul_zero]

end

end Pylogit
