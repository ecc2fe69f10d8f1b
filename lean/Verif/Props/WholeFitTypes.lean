import Verif.Spec.WholeFitTypes
import Verif.Props.WholeFit
import Verif.Props.Params

/-!
# What a fit of a model with outside intercepts or shapes reports about its table is right (C109)
-/

open Matrix

namespace Pylogit

open Spec

noncomputable section

/-! ## Estimation objects with parts -/

section Parts

variable {R O A S I K P ι : Type} [Fintype R] [DecidableEq R] [Nonempty R] [Fintype O] [DecidableEq O]
  [Fintype S] [DecidableEq S] [Fintype I] [DecidableEq I] [Fintype K] [DecidableEq K] [Fintype P] [DecidableEq P]
  {f : R → O} {c : O → R} {ridge : Option ℝ} {d : FitData R O A K ι}

omit [Fintype R] [DecidableEq R] [Nonempty R] [Fintype O] [DecidableEq O] in
private lemma none_obs : ObsWeights f (none : Option (R → ℝ)) := fun w e => by cases e

omit [Fintype R] [DecidableEq R] [Nonempty R] in
private lemma none_nonneg : NonnegWeights (none : Option (R → ℝ)) := fun w e => by cases e

theorem works_both (hM : Indicates d.rowsToObs f) (hc : OneChoice f d.choice c) {T : Transform R A S I ι}
    {derivs : (S → ℝ) → (R → ℝ) → Derivs R S I} {W : (S ⊕ (I ⊕ K) → ℝ) → R → ℝ} {Dom : (S ⊕ (I ⊕ K) → ℝ) → Prop}
    (hW : ∀ s a (β : K → ℝ), T (d.design *ᵥ β) d.altIDs d.rowsToAlts (some s) (some a) = W (Sum.elim s (Sum.elim a β)))
    (hz : ∃ b, ∀ r, W (fun _ => 0) r = b) (hT : ∀ s a, Rowwise T d.altIDs d.rowsToAlts (some s) (some a))
    (hd : ∀ s a (β : K → ℝ), Dom (Sum.elim s (Sum.elim a β)) →
      DerivsCorrect T (derivs s (d.design *ᵥ β)) (d.design *ᵥ β) d.altIDs d.rowsToAlts (some s) (some a)) :
    Works f c ridge (estimatorBoth T derivs d ridge none) (fisherOfBoth T derivs d ridge) W Dom := by
  have hsplit : ∀ θ : S ⊕ (I ⊕ K) → ℝ, θ = Sum.elim (fun i => θ (.inl i))
      (Sum.elim (fun i => θ (.inr (.inl i))) fun k => θ (.inr (.inr k))) := by
    intro θ; funext i; rcases i with i | i | i <;> rfl
  have hW' : (fun θ : S ⊕ (I ⊕ K) → ℝ => T (d.design *ᵥ fun k => θ (.inr (.inr k))) d.altIDs d.rowsToAlts
      (some fun i => θ (.inl i)) (some fun i => θ (.inr (.inl i)))) = W := by
    funext θ; rw [hW, ← hsplit]
  refine ⟨?_, hz, ?_, ?_, ?_, ?_, fun _ => rfl⟩
  · intro con θ
    rw [estimatorBoth_loglik hM hc, ← hW']
  · intro con θ hx hb
    obtain ⟨s, a, β, rfl⟩ : ∃ s a β, θ = Sum.elim s (Sum.elim a β) := ⟨_, _, _, hsplit θ⟩
    have := partials_of_objective (estimatorBoth_objective (ridge := ridge) (con := none) hM hc none_obs s a β
      (hT s a) (hd s a β hx) (by rw [hW]; exact hb)) rfl
    rw [← hW']
    exact this
  · intro θ hx hb
    obtain ⟨s, a, β, rfl⟩ : ∃ s a β, θ = Sum.elim s (Sum.elim a β) := ⟨_, _, _, hsplit θ⟩
    have := fisher_info_both hM hc (obsWeights_est none_obs) (nonnegWeights_est none_nonneg) ridge
      (hT s a) (hd s a β hx) (by rw [hW]; exact hb)
    simp only [modelProbs, longProbs_eq_clippedLogit hM, estWeights_getD, Option.getD_none] at this
    rw [← hW']
    exact this
  · intro con θ
    exact (hessian_ridge_bound hM (obsWeights_est none_obs) (nonnegWeights_est none_nonneg) ridge _ _ _ _ _ _ _ _).1
  · intro con θ hx
    obtain ⟨s, a, β, rfl⟩ : ∃ s a β, θ = Sum.elim s (Sum.elim a β) := ⟨_, _, _, hsplit θ⟩
    have := hessian_covariance_both hM hc.mem (obsWeights_est none_obs) (clippedLogit f (W (Sum.elim s (Sum.elim a β)))) ridge
      (hT s a) (hd s a β hx)
    simp only [estWeights_getD, Option.getD_none] at this
    rw [hW'] at this
    refine Eq.subst (motive := fun H => CovarianceHessian H _ _ _ _ _ _) ?_ this
    rw [← hW']
    simp only [estimatorBoth, modelProbs]
    rw [show longProbs d.rowsToObs _ = _ from funext (longProbs_eq_clippedLogit hM _)]
    rfl

theorem works_shape (hM : Indicates d.rowsToObs f) (hc : OneChoice f d.choice c) {T : Transform R A S I ι}
    {derivs : (S → ℝ) → (R → ℝ) → Derivs R S I} {W : (S ⊕ K → ℝ) → R → ℝ} {Dom : (S ⊕ K → ℝ) → Prop}
    (hW : ∀ s (β : K → ℝ), T (d.design *ᵥ β) d.altIDs d.rowsToAlts (some s) none = W (Sum.elim s β))
    (hz : ∃ b, ∀ r, W (fun _ => 0) r = b) (hT : ∀ s, Rowwise T d.altIDs d.rowsToAlts (some s) none)
    (hd : ∀ s (β : K → ℝ), Dom (Sum.elim s β) →
      DerivsCorrect T (derivs s (d.design *ᵥ β)) (d.design *ᵥ β) d.altIDs d.rowsToAlts (some s) none) :
    Works f c ridge (estimatorShape T derivs d ridge none) (fisherOfShape T derivs d ridge) W Dom := by
  have hsplit : ∀ θ : S ⊕ K → ℝ, θ = Sum.elim (fun i => θ (.inl i)) fun k => θ (.inr k) := by
    intro θ; funext i; rcases i with i | i <;> rfl
  have hW' : (fun θ : S ⊕ K → ℝ => T (d.design *ᵥ fun k => θ (.inr k)) d.altIDs d.rowsToAlts
      (some fun i => θ (.inl i)) none) = W := by
    funext θ; rw [hW, ← hsplit]
  refine ⟨?_, hz, ?_, ?_, ?_, ?_, fun _ => rfl⟩
  · intro con θ
    rw [estimatorShape_loglik hM hc, ← hW']
  · intro con θ hx hb
    obtain ⟨s, β, rfl⟩ : ∃ s β, θ = Sum.elim s β := ⟨_, _, hsplit θ⟩
    have := partials_of_objective (estimatorShape_objective (ridge := ridge) (con := none) hM hc none_obs s β
      (hT s) (hd s β hx) (by rw [hW]; exact hb)) rfl
    rw [← hW']
    exact this
  · intro θ hx hb
    obtain ⟨s, β, rfl⟩ : ∃ s β, θ = Sum.elim s β := ⟨_, _, hsplit θ⟩
    have := fisher_info_shape hM hc (obsWeights_est none_obs) (nonnegWeights_est none_nonneg) ridge
      (hT s) (hd s β hx) (by rw [hW]; exact hb)
    simp only [modelProbs, longProbs_eq_clippedLogit hM, estWeights_getD, Option.getD_none] at this
    rw [← hW']
    exact this
  · intro con θ
    exact (hessian_ridge_bound hM (obsWeights_est none_obs) (nonnegWeights_est none_nonneg) ridge _ _ _ _ _ _ _ _).2.1
  · intro con θ hx
    obtain ⟨s, β, rfl⟩ : ∃ s β, θ = Sum.elim s β := ⟨_, _, hsplit θ⟩
    have := hessian_covariance_shape hM hc.mem (obsWeights_est none_obs) (clippedLogit f (W (Sum.elim s β))) ridge
      (hT s) (hd s β hx)
    simp only [estWeights_getD, Option.getD_none] at this
    rw [hW'] at this
    refine Eq.subst (motive := fun H => CovarianceHessian H _ _ _ _ _ _) ?_ this
    rw [← hW']
    simp only [estimatorShape, modelProbs]
    rw [show longProbs d.rowsToObs _ = _ from funext (longProbs_eq_clippedLogit hM _)]
    rfl

theorem works_icpt (hM : Indicates d.rowsToObs f) (hc : OneChoice f d.choice c) {T : Transform R A S I ι}
    {derivs : (R → ℝ) → Derivs R S I} {W : (I ⊕ K → ℝ) → R → ℝ} {Dom : (I ⊕ K → ℝ) → Prop}
    (hW : ∀ a (β : K → ℝ), T (d.design *ᵥ β) d.altIDs d.rowsToAlts none (some a) = W (Sum.elim a β))
    (hz : ∃ b, ∀ r, W (fun _ => 0) r = b) (hT : ∀ a, Rowwise T d.altIDs d.rowsToAlts none (some a))
    (hd : ∀ a (β : K → ℝ), Dom (Sum.elim a β) →
      DerivsCorrect T (derivs (d.design *ᵥ β)) (d.design *ᵥ β) d.altIDs d.rowsToAlts none (some a)) :
    Works f c ridge (estimatorIcpt T derivs d ridge none) (fisherOfIcpt T derivs d ridge) W Dom := by
  have hsplit : ∀ θ : I ⊕ K → ℝ, θ = Sum.elim (fun i => θ (.inl i)) fun k => θ (.inr k) := by
    intro θ; funext i; rcases i with i | i <;> rfl
  have hW' : (fun θ : I ⊕ K → ℝ => T (d.design *ᵥ fun k => θ (.inr k)) d.altIDs d.rowsToAlts
      none (some fun i => θ (.inl i))) = W := by
    funext θ; rw [hW, ← hsplit]
  refine ⟨?_, hz, ?_, ?_, ?_, ?_, fun _ => rfl⟩
  · intro con θ
    rw [estimatorIcpt_loglik hM hc, ← hW']
  · intro con θ hx hb
    obtain ⟨a, β, rfl⟩ : ∃ a β, θ = Sum.elim a β := ⟨_, _, hsplit θ⟩
    have := partials_of_objective (estimatorIcpt_objective (ridge := ridge) (con := none) hM hc none_obs a β
      (hT a) (hd a β hx) (by rw [hW]; exact hb)) rfl
    rw [← hW']
    exact this
  · intro θ hx hb
    obtain ⟨a, β, rfl⟩ : ∃ a β, θ = Sum.elim a β := ⟨_, _, hsplit θ⟩
    have := fisher_info_icpt hM hc (obsWeights_est none_obs) (nonnegWeights_est none_nonneg) ridge
      (hT a) (hd a β hx) (by rw [hW]; exact hb)
    simp only [modelProbs, longProbs_eq_clippedLogit hM, estWeights_getD, Option.getD_none] at this
    rw [← hW']
    exact this
  · intro con θ
    exact (hessian_ridge_bound hM (obsWeights_est none_obs) (nonnegWeights_est none_nonneg) ridge _ _ _ _ _ _ _ _).2.2.1
  · intro con θ hx
    obtain ⟨a, β, rfl⟩ : ∃ a β, θ = Sum.elim a β := ⟨_, _, hsplit θ⟩
    have := hessian_covariance_icpt hM hc.mem (obsWeights_est none_obs) (clippedLogit f (W (Sum.elim a β))) ridge
      (hT a) (hd a β hx)
    simp only [estWeights_getD, Option.getD_none] at this
    rw [hW'] at this
    refine Eq.subst (motive := fun H => CovarianceHessian H _ _ _ _ _ _) ?_ this
    rw [← hW']
    simp only [estimatorIcpt, modelProbs]
    rw [show longProbs d.rowsToObs _ = _ from funext (longProbs_eq_clippedLogit hM _)]
    rfl

theorem works_none (hM : Indicates d.rowsToObs f) (hc : OneChoice f d.choice c) {T : Transform R A S I ι}
    {derivs : (R → ℝ) → Derivs R S I} {W : (K → ℝ) → R → ℝ} {Dom : (K → ℝ) → Prop}
    (hW : ∀ β : K → ℝ, T (d.design *ᵥ β) d.altIDs d.rowsToAlts none none = W β)
    (hz : ∃ b, ∀ r, W (fun _ => 0) r = b) (hT : Rowwise T d.altIDs d.rowsToAlts none none)
    (hd : ∀ β : K → ℝ, Dom β →
      DerivsCorrect T (derivs (d.design *ᵥ β)) (d.design *ᵥ β) d.altIDs d.rowsToAlts none none) :
    Works f c ridge (estimatorNone T derivs d ridge none) (fisherOfNone T derivs d ridge) W Dom := by
  have hW' : (fun β : K → ℝ => T (d.design *ᵥ β) d.altIDs d.rowsToAlts none none) = W := funext hW
  refine ⟨?_, hz, ?_, ?_, ?_, ?_, fun _ => rfl⟩
  · intro con θ
    rw [estimatorNone_loglik hM hc, ← hW']
  · intro con θ hx hb
    have := partials_of_objective (estimatorNone_objective (ridge := ridge) (con := none) hM hc none_obs θ
      hT (hd θ hx) (by rw [hW]; exact hb)) rfl
    rw [← hW']
    exact this
  · intro θ hx hb
    have := fisher_info_none hM hc (obsWeights_est none_obs) (nonnegWeights_est none_nonneg) ridge
      hT (hd θ hx) (by rw [hW]; exact hb)
    simp only [modelProbs, longProbs_eq_clippedLogit hM, estWeights_getD, Option.getD_none] at this
    rw [← hW']
    exact this
  · intro con θ
    exact (hessian_ridge_bound hM (obsWeights_est none_obs) (nonnegWeights_est none_nonneg) ridge _ _ _ _ _ _ _ _).2.2.2
  · intro con θ hx
    have := hessian_covariance_none hM hc.mem (obsWeights_est none_obs) (clippedLogit f (W (θ))) ridge
      hT (hd θ hx)
    simp only [estWeights_getD, Option.getD_none] at this
    rw [hW'] at this
    refine Eq.subst (motive := fun H => CovarianceHessian H _ _ _ _ _ _) ?_ this
    rw [← hW']
    simp only [estimatorNone, modelProbs]
    rw [show longProbs d.rowsToObs _ = _ from funext (longProbs_eq_clippedLogit hM _)]

omit [Fintype P] in
private lemma update_reindex {n : ℕ} (e : P ≃ Fin n) (x : Fin n → ℝ) (i : Fin n) (t : ℝ) :
    Function.update x i t ∘ e = Function.update (x ∘ e) (e.symm i) t := Function.update_comp_equiv x e i t

omit [Fintype P] in
theorem partials_reindex {n : ℕ} (e : P ≃ Fin n) {F : (P → ℝ) → ℝ} {g : P → ℝ} {x : Fin n → ℝ}
    (h : HasPartials F g (x ∘ e)) : HasPartials (fun y => F (y ∘ e)) (fun i => g (e.symm i)) x := by
  intro i
  have := h (e.symm i)
  simp only [Function.comp_apply, Equiv.apply_symm_apply] at this
  simpa only [update_reindex] using this

omit [Fintype P] in
private lemma if_reindex {n : ℕ} (e : P ≃ Fin n) (i j : Fin n) {a : ℝ} :
    a * (if e.symm i = e.symm j then (1 : ℝ) else 0) = a * if i = j then 1 else 0 := by
  simp

omit [DecidableEq P] in
theorem SymmBelow.reindex {b : ℝ} {H : Matrix P P ℝ} (h : SymmBelow b H) {n : ℕ} (e : P ≃ Fin n) :
    SymmBelow b (H.submatrix e.symm e.symm) := by
  obtain ⟨h1, h2⟩ := h
  refine ⟨?_, fun x => ?_⟩
  · rw [transpose_submatrix, h1]
  · have key := h2 (x ∘ e)
    have q1 : (x ∘ e) ⬝ᵥ (x ∘ e) = x ⬝ᵥ x := by
      simp only [dotProduct, Function.comp_apply]
      exact e.sum_comp fun i => x i * x i
    have q2 : x ⬝ᵥ ((H.submatrix e.symm e.symm) *ᵥ x) = (x ∘ e) ⬝ᵥ (H *ᵥ (x ∘ e)) := by
      simp only [dotProduct, mulVec, submatrix_apply, Function.comp_apply]
      rw [← e.sum_comp]
      refine Finset.sum_congr rfl fun i _ => ?_
      rw [← e.sum_comp]
      simp
    rw [q1] at key
    exact (le_of_eq q2).trans key

omit [Nonempty R] in
/-- Giving the parameters by their positions changes nothing. -/
theorem Works.reindex {est : Option (List P) → Estimator P} {fisher : (P → ℝ) → Matrix P P ℝ}
    {W : (P → ℝ) → R → ℝ} {Dom : (P → ℝ) → Prop} (h : Works f c ridge est fisher W Dom) {n : ℕ} (e : P ≃ Fin n) :
    Works f c ridge (LogitObject.ofParts e est fisher).est (LogitObject.ofParts e est fisher).fisher
      (fun θ => W (θ ∘ e)) (fun θ => Dom (θ ∘ e)) := by
  have hpen : ∀ θ : Fin n → ℝ, penalisedLogLik c none ridge (fun θ : Fin n → ℝ => clippedLogit f (W (θ ∘ e))) θ =
      penalisedLogLik c none ridge (fun θ => clippedLogit f (W θ)) (θ ∘ e) := by
    intro θ
    unfold penalisedLogLik
    congr 2
    exact (e.sum_comp fun i => θ i ^ 2).symm
  refine ⟨?_, ?_, ?_, ?_, ?_, ?_, fun con => ?_⟩
  · intro con θ
    refine Eq.trans ?_ (hpen θ).symm
    exact h.value _ _
  · obtain ⟨b, hb⟩ := h.zero
    exact ⟨b, hb⟩
  · intro con θ hx hb
    have := partials_reindex e (h.gradient (con.map fun l => l.map e.symm) (θ ∘ e) hx hb)
    refine Eq.subst (motive := fun F => HasPartials F _ _) ?_ this
    funext y
    exact (hpen y).symm
  · intro θ hx hb
    obtain ⟨S, hS, hF⟩ := h.fisher (θ ∘ e) hx hb
    refine ⟨fun o i => S o (e.symm i), fun o => ?_, fun i j => ?_⟩
    · exact partials_reindex e (hS o)
    · exact (hF (e.symm i) (e.symm j)).trans (congrArg _ (if_reindex e i j))
  · intro con θ
    exact SymmBelow.reindex (h.hessian (con.map fun l => l.map e.symm) (θ ∘ e)) e
  · intro con θ hx
    obtain ⟨J, hJ, hH⟩ := h.covariance (con.map fun l => l.map e.symm) (θ ∘ e) hx
    refine ⟨Matrix.of fun r i => J r (e.symm i), fun r => partials_reindex e (hJ r), fun i j => ?_⟩
    exact (hH (e.symm i) (e.symm j)).trans (congrArg _ (if_reindex e i j))
  · have key : ∀ con : Option (List (Fin n)),
        (est (con.map fun l => l.map e.symm)).constrainedPos.map (fun l => l.map e) = con := by
      intro con
      rw [h.constrained]
      cases con <;> simp [Function.comp_def]
    exact key con

omit [Nonempty R] in
theorem Works.mono {est : Option (List P) → Estimator P} {fisher : (P → ℝ) → Matrix P P ℝ}
    {W : (P → ℝ) → R → ℝ} {Dom Dom' : (P → ℝ) → Prop} (h : Works f c ridge est fisher W Dom)
    (hD : ∀ θ, Dom' θ → Dom θ) : Works f c ridge est fisher W Dom' :=
  ⟨h.value, h.zero, fun con θ hx => h.gradient con θ (hD θ hx), fun θ hx => h.fisher θ (hD θ hx), h.hessian,
    fun con θ hx => h.covariance con θ (hD θ hx), h.constrained⟩

end Parts

/-! ## Parameters by alternative -/

section ById

variable {n : ℕ} {alts : List ℝ}

/-- The value of an alternative, given one value per alternative in the order of `alts`. -/
private def byId (alts : List ℝ) (g : Fin (n + 1) → ℝ) (a : ℝ) : ℝ :=
  if h : alts.idxOf a < n + 1 then g ⟨alts.idxOf a, h⟩ else 0

private lemma byId_get (hn : alts.Nodup) (hl : alts.length = n + 1) (g : Fin (n + 1) → ℝ) (i : Fin (n + 1)) :
    byId alts g (alts[i.val]'(by rw [hl]; exact i.2)) = g i := by
  have : alts.idxOf (alts[i.val]'(by rw [hl]; exact i.2)) = i.val := hn.idxOf_getElem _ _
  unfold byId
  rw [dif_pos (by rw [this]; exact i.2)]
  congr 1
  exact Fin.ext this

private lemma byId_map (hn : alts.Nodup) (hl : alts.length = n + 1) (g : Fin (n + 1) → ℝ) :
    alts.map (byId alts g) = List.ofFn g := by
  apply List.ext_getElem
  · simp [hl]
  · intro i h1 h2
    rw [List.getElem_map, List.getElem_ofFn]
    exact byId_get hn hl g ⟨i, by simpa using h2⟩

private lemma eraseIdx_ofFn (z : Fin (n + 1)) (g : Fin (n + 1) → ℝ) :
    (List.ofFn g).eraseIdx z = List.ofFn fun i => g (z.succAbove i) := by
  apply List.ext_getElem
  · simp [List.length_eraseIdx, Nat.lt_succ_iff.1 z.2]
  · intro i h1 h2
    rw [List.getElem_eraseIdx]
    simp only [List.getElem_ofFn]
    have hi : i < n := by simpa using h2
    split_ifs with h
    · rw [Fin.succAbove_of_castSucc_lt z ⟨i, hi⟩ (by simpa [Fin.lt_def] using h)]
      rfl
    · rw [Fin.succAbove_of_le_castSucc z ⟨i, hi⟩ (by simpa [Fin.le_def] using h)]
      rfl

private lemma lists_byId (hn : alts.Nodup) (hl : alts.length = n + 1) (z : Fin (n + 1)) (a : Fin n → ℝ) :
    ListsOthers alts (.int z.val) (byId alts (withReference z a)) (List.ofFn a) := by
  refine ⟨z.val, by rw [hl]; exact z.2, rfl, ?_, ?_⟩
  · rw [← List.eraseIdx_map, byId_map hn hl, eraseIdx_ofFn]
    simp [withReference]
  · rw [byId_get hn hl]
    simp [withReference]

private lemma byId_zero (a : ℝ) : byId (n := n) alts (fun _ => 0) a = 0 := by simp [byId]

private lemma sum_byId (hn : alts.Nodup) (hl : alts.length = n + 1) (g : Fin (n + 1) → ℝ) :
    (alts.map fun b => Real.exp (byId alts g b)).sum = ∑ i, Real.exp (g i) := by
  have : (alts.map fun b => Real.exp (byId alts g b)) = (alts.map (byId alts g)).map Real.exp := by
    rw [List.map_map]; rfl
  rw [this, byId_map hn hl, List.map_ofFn, List.sum_ofFn]
  rfl

variable {R : Type} {alt : R → Fin (n + 1)} {id : R → ℝ}

private lemma clog_row (hn : alts.Nodup) (hl : alts.length = n + 1)
    (hid : ∀ r, id r = alts[(alt r).val]'(by rw [hl]; exact (alt r).2)) (i s : Fin (n + 1) → ℝ) (v : R → ℝ) (r : R) :
    clogUtility i alt v r = rowUtility .cloglog alts ⟨byId alts i, byId alts s⟩ (id r) (v r) := by
  simp only [clogUtility, rowUtility, hid, byId_get hn hl]

private lemma scobit_row (hn : alts.Nodup) (hl : alts.length = n + 1)
    (hid : ∀ r, id r = alts[(alt r).val]'(by rw [hl]; exact (alt r).2)) (i s : Fin (n + 1) → ℝ) (v : R → ℝ) (r : R) :
    scobitUtility i s alt v r = rowUtility .scobit alts ⟨byId alts i, byId alts s⟩ (id r) (v r) := by
  simp only [scobitUtility, rowUtility, hid, byId_get hn hl]

private lemma uneven_row (hn : alts.Nodup) (hl : alts.length = n + 1)
    (hid : ∀ r, id r = alts[(alt r).val]'(by rw [hl]; exact (alt r).2)) (i s : Fin (n + 1) → ℝ) (v : R → ℝ) (r : R) :
    unevenUtility i s alt v r = rowUtility .uneven alts ⟨byId alts i, byId alts s⟩ (id r) (v r) := by
  simp only [unevenUtility, rowUtility, hid, byId_get hn hl]

private lemma asym_row (hn : alts.Nodup) (hl : alts.length = n + 1)
    (hid : ∀ r, id r = alts[(alt r).val]'(by rw [hl]; exact (alt r).2)) (i s : Fin (n + 1) → ℝ) (v : R → ℝ) (r : R) :
    asymUtility i s alt v r = rowUtility .asym alts ⟨byId alts i, byId alts s⟩ (id r) (v r) := by
  simp only [asymUtility, rowUtility, hid, byId_get hn hl, naturalShape, sum_byId hn hl, hl]
  simp

end ById

/-! ## The vector of all parameters -/

theorem ofFn_two {s k : ℕ} (θ : Fin (s + k) → ℝ) :
    List.ofFn θ = List.ofFn (fun i => θ (twoParts s k (.inl i))) ++ List.ofFn fun i => θ (twoParts s k (.inr i)) :=
  List.ofFn_add (f := θ)

private lemma ofFn_three {s i k : ℕ} (θ : Fin (s + (i + k)) → ℝ) :
    List.ofFn θ = List.ofFn (fun j => θ (threeParts s i k (.inl j))) ++
      (List.ofFn (fun j => θ (threeParts s i k (.inr (.inl j)))) ++
        List.ofFn fun j => θ (threeParts s i k (.inr (.inr j)))) := by
  rw [List.ofFn_add (f := θ)]
  congr 1
  exact List.ofFn_add (f := fun j => θ (Fin.natAdd s j))

/-- The vector `θ` and the utilities `u` are those of parameter arrays of the model, and `split_param_vec` gives
these arrays. -/
def Laid (m : ChoiceModel ℝ) (alts : List ℝ) (cols : List (ColDesc ℝ)) (θ : List ℝ)
    (u : Fin m.data.numRows → ℝ) : Prop :=
  ∃ (p : ParamArrays) (q : AltParams),
    HoldsFor m.cls alts m.args.interceptRefPos m.args.shapeRefPos p q ∧
    (p.shapes = none ↔ m.cls = .mnl ∨ m.cls = .cloglog) ∧
    (p.intercepts = none ↔ m.cls = .mnl ∨ m.args.interceptRefPos = .none ∨ alts.length = 1) ∧
    p.index.length = cols.length ∧
    θ = p.shapes.getD [] ++ (p.intercepts.getD [] ++ p.index) ∧
    (∀ r, u r = rowUtility m.cls alts q (m.data.val m.args.altIdCol r)
      (rowIndex m.data m.args.altIdCol cols p.index r)) ∧
    splitParamVec m.cls (fitDims m) θ = ⟨none, p.shapes, p.intercepts, p.index⟩ ∧ p.nests = none

private lemma split_ext {x : SplitParams ℝ} {a b c : Option (List ℝ)} {d : List ℝ} (h1 : x.nests = a)
    (h2 : x.shapes = b) (h3 : x.intercepts = c) (h4 : x.index = d) : x = ⟨a, b, c, d⟩ := by
  subst h1 h2 h3 h4
  rfl

private lemma laid_mk {m : ChoiceModel ℝ} {alts : List ℝ} {cols : List (ColDesc ℝ)} {S A B θ : List ℝ}
    {u : Fin m.data.numRows → ℝ} {outside : Bool} (hs : Sized m.cls (fitDims m) outside ⟨[], S, A, B⟩)
    (hk : m.design.length = cols.length) (h0 : 0 < m.design.length)
    (hnest : m.cls ≠ .nested) (hmix : m.cls ≠ .mixed) (hmnl : m.cls ≠ .mnl) (hθ : θ = S ++ (A ++ B)) {q : AltParams}
    (hA : A = [] ↔ m.args.interceptRefPos = .none ∨ alts.length = 1)
    (hi0 : A = [] → ∀ a ∈ alts, q.icpt a = 0)
    (hi : A ≠ [] → ListsOthers alts m.args.interceptRefPos q.icpt A)
    (hsh : m.cls = .scobit ∨ m.cls = .uneven → S = alts.map q.shape)
    (heta : m.cls = .asym → ListsOthers alts m.args.shapeRefPos q.shape S)
    (hu : ∀ r, u r = rowUtility m.cls alts q (m.data.val m.args.altIdCol r)
      (rowIndex m.data m.args.altIdCol cols B r)) : Laid m alts cols θ u := by
  obtain ⟨c1, ⟨c2, c2'⟩, c3, c4⟩ := split_concat m.cls (fitDims m) outside ⟨[], S, A, B⟩ hs h0
  have hflat : (Groups.mk [] S A B).flat = θ := by simp [Groups.flat, hθ]
  rw [hflat] at c1 c2 c2' c3 c4
  rw [if_neg hnest] at c1
  have hB : B.length = cols.length := by
    have := hs.index
    simp only [hmix, if_false, fitDims, add_zero] at this
    rw [this, hk]
  by_cases hS : HasShapes m.cls
  · have hcl : m.cls ≠ .cloglog := by rintro e; rw [e] at hS; exact hS
    refine ⟨⟨B, if A = [] then none else some A, some S, none⟩, q, ⟨?_, ?_, ?_, ?_⟩, ?_, ?_, hB, ?_, hu, ?_, rfl⟩
    · intro h
      exact hi0 (by by_contra hne; simp [hne] at h)
    · intro x h
      by_cases hne : A = []
      · simp [hne] at h
      · simp only [hne, if_false, Option.some.injEq] at h
        exact h ▸ hi hne
    · intro h
      rw [hsh h]
    · intro h
      exact ⟨S, rfl, heta h⟩
    · simp [hmnl, hcl]
    · rw [← or_iff_right hmnl (b := _ ∨ _)] at hA
      rw [← hA]
      by_cases hne : A = [] <;> simp [hne]
    · rw [hθ]
      by_cases hne : A = [] <;> simp [hne]
    · exact split_ext c1 (c2 hS) c3 c4
  · have hcl : m.cls = .cloglog := by
      cases hc : m.cls <;> simp_all [HasShapes]
    have hS0 : S = [] := by
      have := hs.shapes
      rw [hcl] at this
      exact List.length_eq_zero_iff.1 this
    refine ⟨⟨B, if A = [] then none else some A, none, none⟩, q, ⟨?_, ?_, ?_, ?_⟩, ?_, ?_, hB, ?_, hu, ?_, rfl⟩
    · intro h
      exact hi0 (by by_contra hne; simp [hne] at h)
    · intro x h
      by_cases hne : A = []
      · simp [hne] at h
      · simp only [hne, if_false, Option.some.injEq] at h
        exact h ▸ hi hne
    · intro h
      rw [hcl] at h
      simp at h
    · intro h
      rw [hcl] at h
      cases h
    · simp [hcl]
    · rw [← or_iff_right hmnl (b := _ ∨ _)] at hA
      rw [← hA]
      by_cases hne : A = [] <;> simp [hne]
    · rw [hθ, hS0]
      by_cases hne : A = [] <;> simp [hne]
    · exact split_ext c1 (c2' hS) c3 c4

private lemma describes_laid {m : ChoiceModel ℝ} {obj : LogitObject} (ids : List ℝ) {ridge : Option ℝ}
    {U : (Fin obj.n → ℝ) → Fin m.data.numRows → ℝ} {Dom : (Fin obj.n → ℝ) → Prop}
    {O : Type} [Fintype O] [DecidableEq O]
    {f : Fin m.data.numRows → O} {c : O → Fin m.data.numRows} {uid : O → ℝ}
    (hc : OneChoice f (m.data.val m.args.choiceCol) c)
    (hiff : ∀ r o, f r = o ↔ m.data.val m.args.obsIdCol r = uid o)
    {alts : List ℝ} (ha : AltsOf m.data m.args.altIdCol alts) (h2 : m.cls = .asym → 2 ≤ alts.length)
    {cols : List (ColDesc ℝ)} (hcols : m.design = cols.map fun d => d.value m.data m.args.altIdCol)
    (hw : Works f c ridge obj.est obj.fisher U Dom) (hlay : ∀ θ, Laid m alts cols (List.ofFn θ) (U θ)) :
    Describes m obj ids ridge U Dom := by
  refine describes_of ids hc hiff hw ?_ ?_
  · intro θ
    obtain ⟨p, q, hp, -, -, hB, -, hu, hsp, hnn⟩ := hlay θ
    have hv : designDot m.design p.index = .ok (rowIndex m.data m.args.altIdCol cols p.index) := by
      rw [hcols]
      exact designDot_ok hB
    have ht := transform_ok ha h2 hp (rowIndex m.data m.args.altIdCol cols p.index)
    rw [show p = ⟨p.index, p.intercepts, p.shapes, none⟩ by rw [← hnn]] at ht
    simp only [fitProbs, hsp, hv, bind, Except.bind, ht]
    rw [show U θ = _ from funext hu]
  · intro θ
    obtain ⟨p, q, -, -, -, -, hθ, -, hsp, -⟩ := hlay θ
    rw [hsp]
    simpa using hθ.symm

/-! ## The estimation objects of the four models -/

private lemma outsideRef_ok {n : ℕ} {ref : PyRef} {o : Option (Fin (n + 1))} (h : outsideRef n ref = .ok o) :
    (o = none ↔ ref = .none ∨ n = 0) ∧ ∀ z, o = some z → ref = .int z.val ∧ n ≠ 0 := by
  cases ref with
  | none => cases h; simp
  | other => cases h
  | int z =>
    unfold outsideRef at h
    dsimp only at h
    by_cases hz : 0 ≤ z ∧ z ≤ n
    · rw [dif_pos hz] at h
      by_cases hn : n = 0
      · rw [if_pos hn] at h
        cases h
        simp [hn]
      · rw [if_neg hn] at h
        cases h
        simp [hn, hz.1]
    · rw [dif_neg hz] at h
      cases h

private lemma etaRef_ok {n : ℕ} {ref : PyRef} {o : Fin (n + 1)} (h : etaRef n ref = .ok o) : ref = .int o.val := by
  cases ref with
  | none => cases h
  | other => cases h
  | int z =>
    unfold etaRef at h
    dsimp only at h
    by_cases hz : 0 ≤ z ∧ z ≤ n
    · rw [dif_pos hz] at h
      cases h
      simp [hz.1]
    · rw [dif_neg hz] at h
      cases h

/-- The estimation object `obj` works with utilities that follow the parameters as documented. -/
private def Fits (m : ChoiceModel ℝ) (alts : List ℝ) (cols : List (ColDesc ℝ)) {O : Type} [Fintype O] [DecidableEq O]
    (f : Fin m.data.numRows → O) (c : O → Fin m.data.numRows) (ridge : Option ℝ) (obj : LogitObject) : Prop :=
  ∃ (U : (Fin obj.n → ℝ) → Fin m.data.numRows → ℝ) (Dom : (Fin obj.n → ℝ) → Prop),
    Works f c ridge obj.est obj.fisher U Dom ∧ (∀ θ, Laid m alts cols (List.ofFn θ) (U θ)) ∧
    ∀ θ : Fin obj.n → ℝ, SmoothAt m cols θ → Dom θ

section Classes

variable {m : ChoiceModel ℝ} {n : ℕ} {alts : List ℝ} {cols : List (ColDesc ℝ)} {O : Type} [Fintype O] [DecidableEq O]
  {f : Fin m.data.numRows → O} {c : O → Fin m.data.numRows} {ridge : Option ℝ}
  {d : FitData (Fin m.data.numRows) O (Fin (n + 1)) (Fin m.design.length) ℝ} {alt : Fin m.data.numRows → Fin (n + 1)}

private lemma fits_parts {P : Type} [Fintype P] [DecidableEq P] {N : ℕ} {e : P ≃ Fin N}
    {est : Option (List P) → Estimator P} {fisher : (P → ℝ) → Matrix P P ℝ}
    {W : (P → ℝ) → Fin m.data.numRows → ℝ} {Dom : (P → ℝ) → Prop} (hw : Works f c ridge est fisher W Dom)
    (hlay : ∀ θ : Fin N → ℝ, Laid m alts cols (List.ofFn θ) (W (θ ∘ e)))
    (hdom : ∀ θ : Fin N → ℝ, SmoothAt m cols θ → Dom (θ ∘ e)) :
    Fits m alts cols f c ridge (.ofParts e est fisher) :=
  ⟨_, _, hw.reindex e, hlay, hdom⟩

private lemma smooth_index {N : ℕ} {θ : Fin N → ℝ} {S B : List ℝ} (h : SmoothAt m cols θ)
    (hθ : List.ofFn θ = S ++ B) (hB : B.length = cols.length) (r : Fin m.data.numRows) :
    (m.cls = .cloglog → rowIndex m.data m.args.altIdCol cols B r < 3.7) ∧
    (m.cls = .asym → rowIndex m.data m.args.altIdCol cols B r ≠ 0) := by
  have hN : N = S.length + B.length := by simpa using congrArg List.length hθ
  have hd : (List.ofFn θ).drop (N - cols.length) = B := by
    rw [hθ, show N - cols.length = S.length by omega, List.drop_left]
  have := h r
  rw [hd] at this
  exact this

variable (hn : alts.Nodup) (hl : alts.length = n + 1) (hk : m.design.length = cols.length) (h0 : 0 < m.design.length)
  (hnum : (fitDims m).numAlts = n + 1) (hM : Indicates d.rowsToObs f) (hone : OneChoice f d.choice c)
  (hA : Indicates d.rowsToAlts alt)
  (hid : ∀ r, m.data.val m.args.altIdCol r = alts[(alt r).val]'(by rw [hl]; exact (alt r).2))
  (hX : ∀ β r, (d.design *ᵥ β) r = rowIndex m.data m.args.altIdCol cols (List.ofFn β) r)

include hn hl hk h0 hnum hM hone hA hid hX

private lemma scobit_fits [Nonempty (Fin m.data.numRows)] (hcls : m.cls = .scobit) {ref : Option (Fin (n + 1))}
    (href : outsideRef n m.args.interceptRefPos = .ok ref) : Fits m alts cols f c ridge (scobitObject d ridge ref) := by
  obtain ⟨h1, h2⟩ := outsideRef_ok href
  cases ref with
  | none =>
    have h1 := h1.1 rfl
    refine fits_parts (e := twoParts (n + 1) m.design.length)
      (W := fun θ => scobitUtility (fun _ => 0) (fun i => θ (.inl i)) alt (d.design *ᵥ fun k => θ (.inr k)))
      (Dom := fun _ => True)
      (works_shape hM hone (fun s β => scobitTransform_eq_plain hA 0 _ _ s) ⟨0, fun r => ?_⟩
        (fun s r v v' h => by simp [scobitTransform, h]) fun s β _ => scobit_derivs_correct 0 hA _ _ s none)
      (fun θ => laid_mk (outside := m.args.interceptRefPos != .none)
        (q := ⟨byId alts fun _ : Fin (n + 1) => 0, byId alts fun i => θ (twoParts (n + 1) m.design.length (.inl i))⟩)
        (S := List.ofFn fun i => θ (twoParts (n + 1) m.design.length (.inl i))) (A := [])
        (B := List.ofFn fun i => θ (twoParts (n + 1) m.design.length (.inr i))) ⟨?_, ?_, ?_, ?_⟩ hk h0 ?_ ?_ ?_ (ofFn_two θ) ?_ ?_ ?_ ?_ ?_ ?_) fun _ _ => trivial
    · norm_num [scobitUtility, mulVec, dotProduct]
    · simp [hcls]
    · simp [hcls, shapeCount, hnum]
    · rcases h1 with h1 | h1 <;> simp [hcls, interceptCount, hnum, h1]
    · simp [hcls, fitDims]
    · simp [hcls]
    · simp [hcls]
    · simp [hcls]
    · simpa [hl] using h1
    · exact fun _ a _ => byId_zero a
    · simp
    · exact fun _ => (byId_map hn hl _).symm
    · simp [hcls]
    · intro r
      rw [hcls, ← hX]
      exact scobit_row hn hl hid _ _ _ r
  | some z =>
    obtain ⟨h2, h3⟩ := h2 z rfl
    refine fits_parts (e := threeParts (n + 1) n m.design.length)
      (W := fun θ => scobitUtility (withReference z fun i => θ (.inr (.inl i))) (fun i => θ (.inl i)) alt
        (d.design *ᵥ fun k => θ (.inr (.inr k))))
      (Dom := fun _ => True)
      (works_both hM hone (fun s a β => scobitTransform_eq hA z _ _ s a) ⟨0, fun r => ?_⟩
        (fun s a r v v' h => by simp [scobitTransform, h]) fun s a β _ => scobit_derivs_correct z hA _ _ s (some a))
      (fun θ => laid_mk (outside := m.args.interceptRefPos != .none)
        (q := ⟨byId alts (withReference z fun i => θ (threeParts (n + 1) n m.design.length (.inr (.inl i)))),
          byId alts fun i => θ (threeParts (n + 1) n m.design.length (.inl i))⟩)
        ⟨?_, ?_, ?_, ?_⟩ hk h0 ?_ ?_ ?_ (ofFn_three θ) ?_ ?_ ?_ ?_ ?_ ?_) fun _ _ => trivial
    · simp only [withReference_zero]
      norm_num [scobitUtility, mulVec, dotProduct]
    · simp [hcls]
    · simp [hcls, shapeCount, hnum]
    · simp [hcls, interceptCount, hnum, h2]
    · simp [hcls, fitDims]
    · simp [hcls]
    · simp [hcls]
    · simp [hcls]
    · simp [h2, hl]
    · exact fun h => absurd (by simpa using h) h3
    · intro _
      rw [h2]
      exact lists_byId hn hl z _
    · exact fun _ => (byId_map hn hl _).symm
    · simp [hcls]
    · intro r
      rw [hcls, ← hX]
      exact scobit_row hn hl hid _ _ _ r

private lemma uneven_fits [Nonempty (Fin m.data.numRows)] (hcls : m.cls = .uneven) {ref : Option (Fin (n + 1))}
    (href : outsideRef n m.args.interceptRefPos = .ok ref) : Fits m alts cols f c ridge (unevenObject d ridge ref) := by
  obtain ⟨h1, h2⟩ := outsideRef_ok href
  cases ref with
  | none =>
    have h1 := h1.1 rfl
    refine fits_parts (e := twoParts (n + 1) m.design.length)
      (W := fun θ => unevenUtility (fun _ => 0) (fun i => θ (.inl i)) alt (d.design *ᵥ fun k => θ (.inr k)))
      (Dom := fun _ => True)
      (works_shape hM hone (fun s β => unevenTransform_eq_plain hA 0 _ _ s) ⟨0, fun r => ?_⟩
        (fun s r v v' h => by simp [unevenTransform, h]) fun s β _ => uneven_derivs_correct 0 hA _ _ s none)
      (fun θ => laid_mk (outside := m.args.interceptRefPos != .none)
        (q := ⟨byId alts fun _ : Fin (n + 1) => 0, byId alts fun i => θ (twoParts (n + 1) m.design.length (.inl i))⟩)
        (S := List.ofFn fun i => θ (twoParts (n + 1) m.design.length (.inl i))) (A := [])
        (B := List.ofFn fun i => θ (twoParts (n + 1) m.design.length (.inr i))) ⟨?_, ?_, ?_, ?_⟩ hk h0 ?_ ?_ ?_ (ofFn_two θ) ?_ ?_ ?_ ?_ ?_ ?_) fun _ _ => trivial
    · norm_num [unevenUtility, mulVec, dotProduct]
    · simp [hcls]
    · simp [hcls, shapeCount, hnum]
    · rcases h1 with h1 | h1 <;> simp [hcls, interceptCount, hnum, h1]
    · simp [hcls, fitDims]
    · simp [hcls]
    · simp [hcls]
    · simp [hcls]
    · simpa [hl] using h1
    · exact fun _ a _ => byId_zero a
    · simp
    · exact fun _ => (byId_map hn hl _).symm
    · simp [hcls]
    · intro r
      rw [hcls, ← hX]
      exact uneven_row hn hl hid _ _ _ r
  | some z =>
    obtain ⟨h2, h3⟩ := h2 z rfl
    refine fits_parts (e := threeParts (n + 1) n m.design.length)
      (W := fun θ => unevenUtility (withReference z fun i => θ (.inr (.inl i))) (fun i => θ (.inl i)) alt
        (d.design *ᵥ fun k => θ (.inr (.inr k))))
      (Dom := fun _ => True)
      (works_both hM hone (fun s a β => unevenTransform_eq hA z _ _ s a) ⟨0, fun r => ?_⟩
        (fun s a r v v' h => by simp [unevenTransform, h]) fun s a β _ => uneven_derivs_correct z hA _ _ s (some a))
      (fun θ => laid_mk (outside := m.args.interceptRefPos != .none)
        (q := ⟨byId alts (withReference z fun i => θ (threeParts (n + 1) n m.design.length (.inr (.inl i)))),
          byId alts fun i => θ (threeParts (n + 1) n m.design.length (.inl i))⟩)
        ⟨?_, ?_, ?_, ?_⟩ hk h0 ?_ ?_ ?_ (ofFn_three θ) ?_ ?_ ?_ ?_ ?_ ?_) fun _ _ => trivial
    · simp only [withReference_zero]
      norm_num [unevenUtility, mulVec, dotProduct]
    · simp [hcls]
    · simp [hcls, shapeCount, hnum]
    · simp [hcls, interceptCount, hnum, h2]
    · simp [hcls, fitDims]
    · simp [hcls]
    · simp [hcls]
    · simp [hcls]
    · simp [h2, hl]
    · exact fun h => absurd (by simpa using h) h3
    · intro _
      rw [h2]
      exact lists_byId hn hl z _
    · exact fun _ => (byId_map hn hl _).symm
    · simp [hcls]
    · intro r
      rw [hcls, ← hX]
      exact uneven_row hn hl hid _ _ _ r

private lemma clog_fits [Nonempty (Fin m.data.numRows)] (hcls : m.cls = .cloglog) {ref : Option (Fin (n + 1))}
    (href : outsideRef n m.args.interceptRefPos = .ok ref) : Fits m alts cols f c ridge (clogObject d ridge ref) := by
  obtain ⟨h1, h2⟩ := outsideRef_ok href
  cases ref with
  | none =>
    have h1 := h1.1 rfl
    refine fits_parts (e := Equiv.refl _)
      (W := fun θ => clogUtility (fun _ : Fin (n + 1) => 0) alt (d.design *ᵥ θ))
      (Dom := fun θ => ∀ r, (d.design *ᵥ θ) r < 3.7)
      (works_none hM hone (fun β => clogTransform_eq_plain hA 0 _ _) ⟨Real.log (Real.exp 1 - 1), fun r => ?_⟩
        (fun r v v' h => by simp [clogTransform, h]) fun β hv => clog_derivs_correct_partial 0 hA _ hv _ none)
      (fun θ => laid_mk (outside := m.args.interceptRefPos != .none)
        (q := ⟨byId alts fun _ : Fin (n + 1) => 0, fun _ => 0⟩) (S := []) (B := List.ofFn θ)
        (A := []) ⟨?_, ?_, ?_, ?_⟩ hk h0 ?_ ?_ ?_ (by simp) ?_ ?_ ?_ ?_ ?_ ?_) fun θ h r => ?_
    · norm_num [clogUtility, mulVec, dotProduct]
    · simp [hcls]
    · simp [hcls, shapeCount]
    · rcases h1 with h1 | h1 <;> simp [hcls, interceptCount, hnum, h1]
    · simp [hcls, fitDims]
    · simp [hcls]
    · simp [hcls]
    · simp [hcls]
    · simpa [hl] using h1
    · exact fun _ a _ => byId_zero a
    · simp
    · simp [hcls]
    · simp [hcls]
    · intro r
      rw [hcls, ← hX]
      exact clog_row hn hl hid _ (fun _ => 0) _ r
    · have := (smooth_index h (S := []) (B := List.ofFn θ) (by simp) (by simp [hk]) r).1 hcls
      rw [← hX] at this
      exact this
  | some z =>
    obtain ⟨h2, h3⟩ := h2 z rfl
    refine fits_parts (e := twoParts n m.design.length)
      (W := fun θ => clogUtility (withReference z fun i => θ (.inl i)) alt (d.design *ᵥ fun k => θ (.inr k)))
      (Dom := fun θ => ∀ r, (d.design *ᵥ fun k => θ (.inr k)) r < 3.7)
      (works_icpt hM hone (fun a β => clogTransform_eq hA z _ _ a) ⟨Real.log (Real.exp 1 - 1), fun r => ?_⟩
        (fun a r v v' h => by simp [clogTransform, h]) fun a β hv => clog_derivs_correct_partial z hA _ hv _ (some a))
      (fun θ => laid_mk (outside := m.args.interceptRefPos != .none)
        (q := ⟨byId alts (withReference z fun i => θ (twoParts n m.design.length (.inl i))), fun _ => 0⟩) (S := [])
        (A := List.ofFn fun i => θ (twoParts n m.design.length (.inl i)))
        (B := List.ofFn fun i => θ (twoParts n m.design.length (.inr i)))
        ⟨?_, ?_, ?_, ?_⟩ hk h0 ?_ ?_ ?_ (ofFn_two θ) ?_ ?_ ?_ ?_ ?_ ?_) fun θ h r => ?_
    · simp only [withReference_zero]
      norm_num [clogUtility, mulVec, dotProduct]
    · simp [hcls]
    · simp [hcls, shapeCount]
    · simp [hcls, interceptCount, hnum, h2]
    · simp [hcls, fitDims]
    · simp [hcls]
    · simp [hcls]
    · simp [hcls]
    · simp [h2, hl]
    · exact fun h => absurd (by simpa using h) h3
    · intro _
      rw [h2]
      exact lists_byId hn hl z _
    · simp [hcls]
    · simp [hcls]
    · intro r
      rw [hcls, ← hX]
      exact clog_row hn hl hid _ (fun _ => 0) _ r
    · have := (smooth_index h (ofFn_two θ) (by simp [hk]) r).1 hcls
      rw [← hX] at this
      exact this

private lemma asym_fits [Nonempty (Fin m.data.numRows)] (hcls : m.cls = .asym) (hpos : 0 < n)
    {ref : Option (Fin (n + 1))} (href : outsideRef n m.args.interceptRefPos = .ok ref) {sref : Fin (n + 1)}
    (hs : etaRef n m.args.shapeRefPos = .ok sref) : Fits m alts cols f c ridge (asymObject sref d ridge ref) := by
  obtain ⟨h1, h2⟩ := outsideRef_ok href
  have hs := etaRef_ok hs
  cases ref with
  | none =>
    have h1 := h1.1 rfl
    refine fits_parts (e := twoParts n m.design.length)
      (W := fun θ => asymUtility (fun _ => 0) (withReference sref fun i => θ (.inl i)) alt
        (d.design *ᵥ fun k => θ (.inr k)))
      (Dom := fun θ => ∀ r, (d.design *ᵥ fun k => θ (.inr k)) r ≠ 0)
      (works_shape hM hone (fun s β => asymTransform_eq_plain hA hpos sref 0 _ _ s)
        ⟨Real.log (1 / (n + 1)), fun r => ?_⟩
        (fun s r v v' h => by simp [asymTransform, h])
        fun s β hv => asym_derivs_correct_partial hpos sref 0 hA _ _ s none fun r => Or.inl (hv r))
      (fun θ => laid_mk (outside := m.args.interceptRefPos != .none)
        (q := ⟨byId alts fun _ : Fin (n + 1) => 0,
          byId alts (withReference sref fun i => θ (twoParts n m.design.length (.inl i)))⟩)
        (S := List.ofFn fun i => θ (twoParts n m.design.length (.inl i))) (A := [])
        (B := List.ofFn fun i => θ (twoParts n m.design.length (.inr i))) ⟨?_, ?_, ?_, ?_⟩ hk h0 ?_ ?_ ?_ (ofFn_two θ) ?_ ?_ ?_ ?_ ?_ ?_) fun θ h r => ?_
    · simp only [withReference_zero]
      simp [asymUtility, naturalShape, mulVec, dotProduct]
    · simp [hcls]
    · simp [hcls, shapeCount, hnum]
    · rcases h1 with h1 | h1
      · simp [hcls, interceptCount, h1]
      · omega
    · simp [hcls, fitDims]
    · simp [hcls]
    · simp [hcls]
    · simp [hcls]
    · simpa [hl] using h1
    · exact fun _ a _ => byId_zero a
    · simp
    · simp [hcls]
    · intro _
      rw [hs]
      exact lists_byId hn hl sref _
    · intro r
      rw [hcls, ← hX]
      exact asym_row hn hl hid _ _ _ r
    · have := (smooth_index h (ofFn_two θ) (by simp [hk]) r).2 hcls
      rw [← hX] at this
      exact this
  | some z =>
    obtain ⟨h2, h3⟩ := h2 z rfl
    refine fits_parts (e := threeParts n n m.design.length)
      (W := fun θ => asymUtility (withReference z fun i => θ (.inr (.inl i))) (withReference sref fun i => θ (.inl i))
        alt (d.design *ᵥ fun k => θ (.inr (.inr k))))
      (Dom := fun θ => ∀ r, (d.design *ᵥ fun k => θ (.inr (.inr k))) r ≠ 0)
      (works_both hM hone (fun s a β => asymTransform_eq hA hpos sref z _ _ s a)
        ⟨Real.log (1 / (n + 1)), fun r => ?_⟩
        (fun s a r v v' h => by simp [asymTransform, h])
        fun s a β hv => asym_derivs_correct_partial hpos sref z hA _ _ s (some a) fun r => Or.inl (hv r))
      (fun θ => laid_mk (outside := m.args.interceptRefPos != .none)
        (q := ⟨byId alts (withReference z fun i => θ (threeParts n n m.design.length (.inr (.inl i)))),
          byId alts (withReference sref fun i => θ (threeParts n n m.design.length (.inl i)))⟩)
        ⟨?_, ?_, ?_, ?_⟩ hk h0 ?_ ?_ ?_ (ofFn_three θ) ?_ ?_ ?_ ?_ ?_ ?_) fun θ h r => ?_
    · simp only [withReference_zero]
      simp [asymUtility, naturalShape, mulVec, dotProduct]
    · simp [hcls]
    · simp [hcls, shapeCount, hnum]
    · simp [hcls, interceptCount, hnum, h2]
    · simp [hcls, fitDims]
    · simp [hcls]
    · simp [hcls]
    · simp [hcls]
    · simp [h2, hl]
    · exact fun h => absurd (by simpa using h) h3
    · intro _
      rw [h2]
      exact lists_byId hn hl z _
    · simp [hcls]
    · intro _
      rw [hs]
      exact lists_byId hn hl sref _
    · intro r
      rw [hcls, ← hX]
      exact asym_row hn hl hid _ _ _ r
    · have := (smooth_index h ((ofFn_three θ).trans (List.append_assoc _ _ _).symm) (by simp [hk]) r).2 hcls
      rw [← hX] at this
      exact this

end Classes

/-! ## C109: what `fit_mle` reports -/

lemma table_alts {m : ChoiceModel ℝ} {n : ℕ} {alts : List ℝ} (ha : AltsOf m.data m.args.altIdCol alts)
    (hA : (npSort (npUnique (m.data.colList m.args.altIdCol))).length = n + 1) (hl : alts.length = n + 1) :
    ∃ alt : Fin m.data.numRows → Fin (n + 1), Indicates (altsFitData m hA).rowsToAlts alt ∧
      ∀ r, m.data.val m.args.altIdCol r = alts[(alt r).val]'(by rw [hl]; exact (alt r).2) := by
  have hnd : alts.Nodup := ha.ascending.imp fun h => ne_of_lt h
  have hmem : ∀ r, m.data.val m.args.altIdCol r ∈ alts := fun r => (ha.mem _).2 ⟨r, rfl⟩
  have hlt : ∀ r, alts.idxOf (m.data.val m.args.altIdCol r) < alts.length := fun r => List.idxOf_lt_length_of_mem (hmem r)
  refine ⟨fun r => ⟨alts.idxOf (m.data.val m.args.altIdCol r), hl ▸ hlt r⟩, ?_, fun r => (List.getElem_idxOf (hlt r)).symm⟩
  intro r j
  have := Frame.rowsToAlts_apply m.data m.args.altIdCol r (Fin.cast hA.symm j)
  refine Eq.trans this (if_congr ?_ rfl rfl)
  simp only [List.get_eq_getElem, altsOf_eq ha, Fin.val_cast]
  constructor
  · intro h
    refine Fin.ext ?_
    show alts.idxOf _ = _
    rw [h, hnd.idxOf_getElem]
  · intro h
    subst h
    exact (List.getElem_idxOf (hlt r)).symm

private lemma object_fits {m : ChoiceModel ℝ} {alts : List ℝ} {cols : List (ColDesc ℝ)}
    (ha : AltsOf m.data m.args.altIdCol alts) (h2 : m.cls = .asym → 2 ≤ alts.length)
    (hcols : m.design = cols.map fun d => d.value m.data m.args.altIdCol) (h0 : 0 < m.design.length)
    {f : Fin m.data.numRows → Fin (originalOrderUniqueIds (m.data.colList m.args.obsIdCol)).length}
    {c : Fin (originalOrderUniqueIds (m.data.colList m.args.obsIdCol)).length → Fin m.data.numRows}
    (hM : Indicates (m.data.rowsToObs m.args.obsIdCol) f) (hone : OneChoice f (m.data.val m.args.choiceCol) c)
    (hrows : 0 < m.data.numRows) {ridge : Option ℝ} {obj : LogitObject} (hmnl : m.cls ≠ .mnl)
    (hobj : logitObject m hrows ridge = .ok obj) : Fits m alts cols f c ridge obj := by
  have : Nonempty (Fin m.data.numRows) := ⟨⟨0, hrows⟩⟩
  have hnd : alts.Nodup := ha.ascending.imp fun h => ne_of_lt h
  have hk : m.design.length = cols.length := by rw [hcols, List.length_map]
  have hX : ∀ {n : ℕ} (hA : (npSort (npUnique (m.data.colList m.args.altIdCol))).length = n + 1) β r,
      ((altsFitData m hA).design *ᵥ β) r = rowIndex m.data m.args.altIdCol cols (List.ofFn β) r :=
    fun hA β r => design_dot hcols β r
  unfold logitObject at hobj
  split at hobj
  · exact absurd ‹_› hmnl
  · cases hobj
  · cases hobj
  · cases hobj
  all_goals
    rename_i n hcls hA
    have hl : alts.length = n + 1 := by rw [← altsOf_eq ha]; exact hA
    obtain ⟨alt, hind, hid⟩ := table_alts ha hA hl
    simp only [bind, Except.bind] at hobj
    split at hobj
    · cases hobj
    rename_i ref href
  · cases hobj
    exact clog_fits hnd hl hk h0 hA hM hone hind hid (hX hA) hcls href
  · cases hobj
    exact scobit_fits hnd hl hk h0 hA hM hone hind hid (hX hA) hcls href
  · cases hobj
    exact uneven_fits hnd hl hk h0 hA hM hone hind hid (hX hA) hcls href
  · split at hobj
    · cases hobj
    rename_i sref hs
    cases hobj
    exact asym_fits hnd hl hk h0 hA hM hone hind hid (hX hA) hcls (by have := h2 hcls; omega) href hs

private lemma mnl_laid {m : ChoiceModel ℝ} (hcls : m.cls = .mnl) (alts : List ℝ) {cols : List (ColDesc ℝ)}
    {n : ℕ} (hn : n = cols.length) (θ : Fin n → ℝ) :
    Laid m alts cols (List.ofFn θ) fun r => rowIndex m.data m.args.altIdCol cols (List.ofFn θ) r := by
  refine ⟨⟨List.ofFn θ, none, none, none⟩, ⟨fun _ => 0, fun _ => 0⟩, ⟨fun _ _ _ => rfl, fun x h => ?_, ?_, ?_⟩,
    ?_, ?_, ?_, ?_, ?_, ?_, rfl⟩
  · cases h
  · simp [hcls]
  · simp [hcls]
  · simp [hcls]
  · simp [hcls]
  · simpa using hn
  · simp
  · intro r
    rw [hcls]
    rfl
  · simp [hcls, splitParamVec]

theorem laid_documented {m : ChoiceModel ℝ} {alts : List ℝ} {cols : List (ColDesc ℝ)} {n : ℕ}
    {U : (Fin n → ℝ) → Fin m.data.numRows → ℝ} (h : ∀ θ, Laid m alts cols (List.ofFn θ) (U θ)) :
    DocumentedUtilities m alts cols U := by
  intro θ
  obtain ⟨p, q, h1, h2, h3, h4, h5, h6, -⟩ := h θ
  exact ⟨p, q, h1, h2, h3, h4, h5, h6⟩

theorem logit_describes {env : Env ℝ} {ty : String} {df : Frame ℝ} {a : ModelArgs ℝ} {m : ChoiceModel ℝ}
    (hm : createChoiceModel env ty df a = .ok m) {s : List (String × SpecVal ℝ)}
    (hspec : m.args.specification = encodeAll s) {alts : List ℝ} (ids : List ℝ)
    (ha : AltsOf m.data m.args.altIdCol alts) (h2 : m.cls = .asym → 2 ≤ alts.length)
    {chosen : ℝ → Fin m.data.numRows} (hc : OneChoicePerObs m.data m.args.obsIdCol m.args.choiceCol chosen)
    (hrows : 0 < m.data.numRows) {ridge : Option ℝ} {obj : LogitObject} (hobj : logitObject m hrows ridge = .ok obj) :
    ∃ (U : (Fin obj.n → ℝ) → Fin m.data.numRows → ℝ) (Dom : (Fin obj.n → ℝ) → Prop),
      (∀ θ, Laid m alts (specColumns alts s) (List.ofFn θ) (U θ)) ∧ Describes m obj ids ridge U Dom ∧
      ∀ θ : Fin obj.n → ℝ, SmoothAt m (specColumns alts s) θ → Dom θ := by
  by_cases hcls : m.cls = .mnl
  · have e : logitObject m hrows ridge = .ok (mnlObject m hrows ridge) := by
      unfold logitObject
      split <;> simp_all
    rw [e] at hobj
    cases hobj
    obtain ⟨hlen, U, hU, hd, -⟩ := mnl_describes hm hcls hspec ids ha hc hrows ridge
    exact ⟨U, _, fun θ => hU ▸ mnl_laid hcls alts hlen θ, hd, fun _ _ => trivial⟩
  · have hdes := (built_own hm).1.design
    rw [hspec] at hdes
    have hcols : m.design = (specColumns alts s).map fun d => d.value m.data m.args.altIdCol :=
      design_entries ha hdes
    have h0 : 0 < m.design.length := by
      obtain ⟨-, -, -, -, cs, -, hne, hcs, -⟩ := (createDesignMatrix_ok_iff (altsOf_eq ha)).1 hdes
      rw [hcs, List.length_map]
      exact List.length_pos_iff.2 hne
    obtain ⟨f, c, hM, hone, hiff⟩ := table_choice hc
    obtain ⟨U, Dom, hw, hlay, hdom⟩ := object_fits ha h2 hcols h0 hM hone hrows hcls hobj
    exact ⟨U, Dom, hlay, describes_laid ids hone hiff ha h2 hcols hw hlay, hdom⟩

lemma logit_run {solver : Solver} {m : ChoiceModel ℝ} {a : FitArgs} {r : FitResults}
    (h : logitFit solver m a = .ok r) :
    ∃ (x : List ℝ) (hrows : 0 < m.data.numRows) (obj : LogitObject), logitObject m hrows a.ridge = .ok obj ∧
      (m.data.colList m.args.obsIdCol).Pairwise (· ≤ ·) ∧ rawInitVals m.cls (fitDims m) a.init = .ok x ∧
      checkInitLength m.cls (fitDims m) (m.args.interceptRefPos != .none) x = .ok () ∧
      runEstimation solver m obj a.constrained x = .ok r := by
  unfold logitFit at h
  simp only [bind, Except.bind] at h
  split at h
  · cases h
  rename_i x hx
  split at h
  · cases h
  rename_i u hu
  split at h
  · rename_i hrows
    split at h
    · cases h
    rename_i obj hobj
    split at h
    · cases h
    rename_i u' hu'
    refine ⟨x, hrows, obj, hobj, ?_, hx, hu', h⟩
    unfold estimationChecks at hu
    simp only [bind, Except.bind] at hu
    split at hu
    · cases hu
    split at hu
    · cases hu
    rename_i u1 hu1
    exact ensureContiguity_ok.1 hu1
  · cases h

theorem object_class {m : ChoiceModel ℝ} {hrows : 0 < m.data.numRows} {ridge : Option ℝ} {obj : LogitObject}
    (h : logitObject m hrows ridge = .ok obj) : m.cls ≠ .nested ∧ m.cls ≠ .mixed := by
  unfold logitObject at h
  split at h <;> first | cases h; done | simp_all

private lemma partLabels_some (given : Option (List String)) (pre : String) {x : List ℝ} {k : ℕ} (h : x.length = k)
    (hk : k ≠ 0) : optionalLabels (some x) given pre = partLabels given pre k := by
  subst h
  cases given <;> simp [optionalLabels, optionalNames, partLabels, hk]

private lemma labels_eq (label : PyVal ℝ → String) {m : ChoiceModel ℝ} {alts : List ℝ} {cols : List (ColDesc ℝ)}
    (hal : alts ≠ []) (h2 : m.cls = .asym → 2 ≤ alts.length) (hmix : m.args.mixingVars = none) {x : List ℝ}
    {u : Fin m.data.numRows → ℝ} (h : Laid m alts cols x u) {r : FitResults}
    (hr : r.split = splitParamVec m.cls (fitDims m) x) (hnest : m.cls ≠ .nested) (hmixed : m.cls ≠ .mixed) :
    allNames r (addMixingNames (modelNames label m)) = parameterLabels label m alts.length := by
  obtain ⟨p, q, hp, hs, hi, -, -, -, hsp, -⟩ := h
  rw [hsp] at hr
  have hpos := List.length_pos_iff.2 hal
  have hadd : addMixingNames (modelNames label m) = modelNames label m := by
    simp [addMixingNames, modelNames, hmix]
  have hshape : optionalLabels p.shapes m.args.shapeNames "Shape_" =
      partLabels m.args.shapeNames "Shape_" (shapeCount m.cls alts.length) := by
    cases hps : p.shapes with
    | none =>
      rcases hs.1 hps with e | e <;> simp [optionalLabels, partLabels, shapeCount, e]
    | some y =>
      have hno : ¬ (m.cls = .mnl ∨ m.cls = .cloglog) := by rw [← hs, hps]; simp
      by_cases hasym : m.cls = .asym
      · obtain ⟨y', hy', z, hz, -, hl, -⟩ := hp.eta hasym
        rw [hps, Option.some.injEq] at hy'
        subst hy'
        have := h2 hasym
        refine partLabels_some _ _ ?_ ?_
        · rw [hl, hasym, List.length_map, List.length_eraseIdx, if_pos hz]; rfl
        · rw [hasym]; simp only [shapeCount]; omega
      · have hsu : m.cls = .scobit ∨ m.cls = .uneven := by
          cases hc : m.cls <;> simp_all
        have hy := hp.shape hsu
        rw [hps, Option.some.injEq] at hy
        refine partLabels_some _ _ ?_ ?_
        · rcases hsu with e | e <;> simp [hy, e, shapeCount]
        · rcases hsu with e | e <;> simp [e, shapeCount, hal]
  have hicpt : optionalLabels p.intercepts m.args.interceptNames "Outside_ASC_" =
      partLabels m.args.interceptNames "Outside_ASC_"
        (interceptCount m.cls alts.length (m.args.interceptRefPos != .none)) := by
    cases hpi : p.intercepts with
    | none =>
      have : interceptCount m.cls alts.length (m.args.interceptRefPos != .none) = 0 := by
        rcases hi.1 hpi with e | e | e
        · simp [interceptCount, e]
        · simp only [e]; cases m.cls <;> simp [interceptCount]
        · rw [e]; cases m.cls <;> simp [interceptCount]
      rw [this]
      simp [optionalLabels, partLabels]
    | some y =>
      have hno : ¬ (m.cls = .mnl ∨ m.args.interceptRefPos = .none ∨ alts.length = 1) := by rw [← hi, hpi]; simp
      push Not at hno
      obtain ⟨hno1, hno2, hno3⟩ := hno
      obtain ⟨z, hz, -, hl, -⟩ := hp.icpt y hpi
      have hc : interceptCount m.cls alts.length (m.args.interceptRefPos != .none) = alts.length - 1 := by
        have : (m.args.interceptRefPos != .none) = true := by simpa using hno2
        cases hc : m.cls <;> simp_all [interceptCount]
      rw [hc]
      refine partLabels_some _ _ ?_ (by omega)
      rw [hl, List.length_map, List.length_eraseIdx, if_pos hz]
  rw [allNames, hr, hadd]
  simp only [modelNames, parameterLabels, hshape, hicpt]
  rfl

theorem built_nest {env : Env ℝ} {ty : String} {df : Frame ℝ} {a : ModelArgs ℝ} {m : ChoiceModel ℝ}
    (h : createChoiceModel env ty df a = .ok m) (hm : m.cls ≠ .nested) : m.args.nestSpec = none := by
  unfold createChoiceModel at h
  split at h
  · cases h
  rename_i cls _
  rw [classInit_iff] at h
  obtain ⟨-, h⟩ := h
  obtain ⟨-, h2⟩ := baseInit_ok.1 h
  obtain ⟨-, -, d, hd, -, rfl⟩ := initBuild_iff.1 h2
  cases cls <;> simp_all [argsFor]

private lemma outsideRef_iff {n : ℕ} {ref : PyRef} :
    (∃ o, outsideRef n ref = .ok o) ↔ ref = .none ∨ ∃ z : ℤ, ref = .int z ∧ 0 ≤ z ∧ z ≤ n := by
  cases ref with
  | none => simp [outsideRef]
  | other => simp [outsideRef]
  | int z =>
    unfold outsideRef
    dsimp only
    by_cases hz : 0 ≤ z ∧ z ≤ n
    · rw [dif_pos hz]; simp [hz]
    · rw [dif_neg hz]; simpa using hz

private lemma etaRef_iff {n : ℕ} {ref : PyRef} :
    (∃ o, etaRef n ref = .ok o) ↔ ∃ z : ℤ, ref = .int z ∧ 0 ≤ z ∧ z ≤ n := by
  cases ref with
  | none => simp [etaRef]
  | other => simp [etaRef]
  | int z =>
    unfold etaRef
    dsimp only
    by_cases hz : 0 ≤ z ∧ z ≤ n
    · rw [dif_pos hz]; simp [hz]
    · rw [dif_neg hz]; simpa using hz

theorem object_n {m : ChoiceModel ℝ} {hrows : 0 < m.data.numRows} {ridge : Option ℝ} {obj : LogitObject}
    (h : logitObject m hrows ridge = .ok obj) :
    obj.n = totalParams m.cls (fitDims m) (m.args.interceptRefPos != .none) := by
  have key : ∀ {n : ℕ} {ref : Option (Fin (n + 1))}, outsideRef n m.args.interceptRefPos = .ok ref →
      (ref = none → (if m.args.interceptRefPos != .none then n else 0) = 0) ∧
      (∀ z, ref = some z → (if m.args.interceptRefPos != .none then n else 0) = n) := by
    intro n ref href
    obtain ⟨h1, h2⟩ := outsideRef_ok href
    refine ⟨fun e => ?_, fun z e => ?_⟩
    · rcases h1.1 e with e | e <;> simp [e]
    · simp [(h2 z e).1]
  unfold logitObject at h
  split at h
  · rename_i _ hcls
    cases h
    simp [hcls, totalParams, fitDims, mnlObject]
  · cases h
  · cases h
  · cases h
  all_goals
    rename_i n hcls hA
    simp only [bind, Except.bind] at h
    split at h
    · cases h
    rename_i ref href
    obtain ⟨k1, k2⟩ := key href
  · cases h
    rw [hcls]
    simp only [totalParams, fitDims, hA, Nat.succ_eq_add_one, Nat.add_sub_cancel]
    cases ref with
    | none => rw [k1 rfl]; simp [clogObject, LogitObject.ofParts]
    | some z => rw [k2 z rfl]; simp [clogObject, LogitObject.ofParts]
  · cases h
    rw [hcls]
    simp only [totalParams, fitDims, hA, Nat.succ_eq_add_one, Nat.add_sub_cancel]
    cases ref with
    | none => rw [k1 rfl]; simp [scobitObject, LogitObject.ofParts]
    | some z => rw [k2 z rfl]; simp [scobitObject, LogitObject.ofParts]; omega
  · cases h
    rw [hcls]
    simp only [totalParams, fitDims, hA, Nat.succ_eq_add_one, Nat.add_sub_cancel]
    cases ref with
    | none => rw [k1 rfl]; simp [unevenObject, LogitObject.ofParts]
    | some z => rw [k2 z rfl]; simp [unevenObject, LogitObject.ofParts]; omega
  · split at h
    · cases h
    cases h
    rw [hcls]
    simp only [totalParams, fitDims, hA, Nat.succ_eq_add_one, Nat.add_sub_cancel]
    cases ref with
    | none => rw [k1 rfl]; simp [asymObject, LogitObject.ofParts]
    | some z => rw [k2 z rfl]; simp [asymObject, LogitObject.ofParts]; omega

/-- **C109** (every model of logit type). Build a multinomial, clog-log, scobit, uneven or asymmetric logit model on a
table in which every observation chose one row, fit it any number of times, and let one fit store its results without
an exception, after which no other does. Whatever the optimiser is - as long as it reports the value of its objective
where it stops - the attributes of the model then say what they should about the table: there is one parameter per
shape, outside intercept and described column, under the model's names, and the utilities are those the model
documents; if the optimiser minimises, the parameters maximise the log-likelihood; log-likelihood, null
log-likelihood, rho-squares, AIC, BIC, counts, fitted probabilities, residuals and chi-squares are those of the
parameters reported; where the transformation is smooth, the Hessian holds minus the covariances of the derivatives of
the utilities, and unless a utility is clipped, gradient and Fisher information hold the derivatives of this
log-likelihood; and with a ridge penalty that is not negative, all variances are positive, and standard errors, t- and
p-values are those of the Hessian, except for fixed parameters. Predicting the table gives the fitted
probabilities.  The optimiser was started at the vector given, or at the groups given one after the other, with
minus the log-likelihood as its objective and its derivatives, which are zero for the parameters held fixed; and
where it stopped, whether it succeeded and its message are what is stored. -/
theorem logit_fit_report {env : Env ℝ} {ty : String} {df : Frame ℝ} {a : ModelArgs ℝ} {m : ChoiceModel ℝ}
    (hm : createChoiceModel env ty df a = .ok m) {s : List (String × SpecVal ℝ)}
    (hspec : m.args.specification = encodeAll s) {alts ids : List ℝ} (ha : AltsOf m.data m.args.altIdCol alts)
    (h2 : m.cls = .asym → 2 ≤ alts.length)
    (hids : AltsOf m.data m.args.obsIdCol ids) {chosen : ℝ → Fin m.data.numRows}
    (hc : OneChoicePerObs m.data m.args.obsIdCol m.args.choiceCol chosen)
    {solver : Solver} (hsol : FaithfulSolver solver) (label : PyVal ℝ → String) (sf : ℝ → ℝ)
    (before after : List FitCall) (args : FitArgs) (hpoint : args.justPoint = false)
    (hst : (fitCall sf (logitFitCall solver m args) (fitCalls sf before (freshFit label m))).2 = none)
    (hafter : ∀ d ∈ after, ∀ r, d.outcome ≠ .results r) :
    let t := (fitCalls sf (before ++ logitFitCall solver m args :: after) (freshFit label m)).attrs
    ∃ (n : ℕ) (x : Fin n → ℝ) (labels : Fin n → String) (H F : Matrix (Fin n) (Fin n) ℝ)
      (U : (Fin n → ℝ) → Fin m.data.numRows → ℝ),
      DocumentedUtilities m alts (specColumns alts s) U ∧ List.ofFn labels = parameterLabels label m alts.length ∧
      (∃ x₀, StartsFrom m.cls ⟨alts.length, (specColumns alts s).length, 0, 0⟩ args.init x₀ ∧
        OptimiserReport solver x₀ args.constrained ((tableOf m ids).logLik args.ridge U)
          (fun θ => SmoothAt m (specColumns alts s) θ ∧ ∀ r, |U θ r| < 700) (fun _ _ => 0) x H t) ∧
      FitReport (tableOf m ids) args.ridge U labels x t ∧
      (MinimisingSolver solver →
        ∀ y, (tableOf m ids).logLik args.ridge U y ≤ (tableOf m ids).logLik args.ridge U x) ∧
      (SmoothAt m (specColumns alts s) x → (tableOf m ids).CovHessian args.ridge U H x ∧
        ((∀ r, |U x r| < 700) → DerivativeReport (tableOf m ids) args.ridge U labels x F t)) ∧
      (0 ≤ args.ridge.getD 0 → InferenceReport sf labels args.constrained x H F t) ∧
      Reproduces env m t df := by
  intro t
  obtain ⟨r, hr⟩ : ∃ r, (logitFitCall solver m args).outcome = .results r := by
    unfold logitFitCall at hst ⊢
    rw [hpoint] at hst ⊢
    cases hf : logitFit solver m args with
    | error e => simp [hf, fitOutcome, fitCall] at hst
    | ok r => exact ⟨r, by simp [fitOutcome]⟩
  obtain ⟨x₀, hrows, obj, hobj, hasc, hx₁, hx₂, hrun⟩ := logit_run (outcome_ok hr)
  obtain ⟨hnest, hmixed⟩ := object_class hobj
  obtain ⟨U, Dom, hU, hd, hdom⟩ := logit_describes hm hspec ids ha h2 hc hrows hobj
  obtain ⟨ht, ht2⟩ := fits_latest sf before after _ r (freshFit label m) hr hst hafter
  obtain ⟨hfit, x, labels, ps, rep, -, -, rfl, hall, hl, h6, h1, h4, h5, h3⟩ :=
    run_reports hd hasc hids hsol hrun (sf := sf) (s := (freshFit label m).attrs) (t := t)
      (Prod.ext ht.symm ht2)
  have hdes := (built_own hm).1.design
  rw [hspec] at hdes
  have hlen : m.design.length = (specColumns alts s).length := by
    rw [show m.design = _ from design_entries ha hdes, List.length_map, specColumns]
  have hdims : fitDims m = ⟨alts.length, (specColumns alts s).length, 0, 0⟩ := by
    simp [fitDims, altsOf_eq ha, hlen, built_nest hm hnest, built_mixing hm hmixed, nameCount]
  have hpos : 0 < (fitDims m).numAlts := by
    rw [hdims]
    exact List.length_pos_of_mem ((ha.mem _).2 ⟨⟨0, hrows⟩, rfl⟩)
  have hx₃ : x₀.length = obj.n := ((checkInitLength_iff _ _ _ _ hpos).1.1 hx₂).trans (object_n hobj).symm
  rw [rawInitVals_ok, hdims] at hx₁
  refine ⟨obj.n, rep.x, labels, _, _, U, laid_documented hU, ?_,
    ⟨x₀, hx₁, optimiser_report_mono (h6 hx₃) fun θ h => ⟨hdom _ h.1, h.2⟩⟩, h1, h4,
    fun hs => ⟨hd.covariance ps rep.x (hdom _ hs), fun hb => h5 (hdom _ hs) hb⟩, h3,
    predict_reproduces_fit hm hmixed sf before after _ r _ _ hr hfit hst hafter⟩
  have hne : alts ≠ [] := by
    rintro rfl
    have := (ha.mem _).2 ⟨⟨0, hrows⟩, rfl⟩
    simp at this
  exact hl.trans (labels_eq label hne h2 (built_mixing hm hmixed) (hU rep.x) (hall ▸ hfit.split) hnest hmixed)

/-! ## When a fit succeeds -/

theorem object_iff {m : ChoiceModel ℝ} (hrows : 0 < m.data.numRows) (ridge : Option ℝ) {alts : List ℝ}
    (ha : AltsOf m.data m.args.altIdCol alts) :
    (∃ obj, logitObject m hrows ridge = .ok obj) ↔
      m.cls ≠ .nested ∧ m.cls ≠ .mixed ∧
      (m.cls ≠ .mnl → m.args.interceptRefPos = .none ∨
        ∃ z : ℤ, m.args.interceptRefPos = .int z ∧ 0 ≤ z ∧ z < alts.length) ∧
      (m.cls = .asym → ∃ z : ℤ, m.args.shapeRefPos = .int z ∧ 0 ≤ z ∧ z < alts.length) := by
  have hl := altsOf_eq ha
  have hne : alts ≠ [] := by
    rintro rfl
    have := (ha.mem _).2 ⟨⟨0, hrows⟩, rfl⟩
    simp at this
  unfold logitObject
  split
  · rename_i _ hcls; simp [hcls]
  · rename_i _ hcls; simp [hcls]
  · rename_i _ hcls; simp [hcls]
  · rename_i hA _ _ _
    rw [hl] at hA
    exact absurd (List.length_eq_zero_iff.1 hA) hne
  all_goals
    rename_i n hcls hA
    rw [hl] at hA
    have hlt : ∀ z : ℤ, z < alts.length ↔ z ≤ n := by intro z; rw [hA]; push_cast; omega
    simp only [hlt, hcls, ne_eq, reduceCtorEq, not_false_eq_true, true_and, forall_const, false_imp_iff, and_true]
    rw [← outsideRef_iff]
  · constructor
    · rintro ⟨obj, h⟩
      simp only [bind, Except.bind] at h
      split at h
      · cases h
      · exact ⟨_, ‹_›⟩
    · rintro ⟨o, ho⟩
      simp [ho, bind, Except.bind, pure, Except.pure]
  · constructor
    · rintro ⟨obj, h⟩
      simp only [bind, Except.bind] at h
      split at h
      · cases h
      · exact ⟨_, ‹_›⟩
    · rintro ⟨o, ho⟩
      simp [ho, bind, Except.bind, pure, Except.pure]
  · constructor
    · rintro ⟨obj, h⟩
      simp only [bind, Except.bind] at h
      split at h
      · cases h
      · exact ⟨_, ‹_›⟩
    · rintro ⟨o, ho⟩
      simp [ho, bind, Except.bind, pure, Except.pure]
  · rw [← etaRef_iff]
    constructor
    · rintro ⟨obj, h⟩
      simp only [bind, Except.bind] at h
      split at h
      · cases h
      rename_i o ho
      split at h
      · cases h
      exact ⟨⟨_, ho⟩, ⟨_, ‹_›⟩⟩
    · rintro ⟨⟨o, ho⟩, ⟨z, hz⟩⟩
      simp [ho, hz, bind, Except.bind, pure, Except.pure]

theorem logit_accepts_of {env : Env ℝ} {ty : String} {df : Frame ℝ} {a : ModelArgs ℝ} {m : ChoiceModel ℝ}
    (hm : createChoiceModel env ty df a = .ok m) (hn : m.cls ≠ .nested) (hx : m.cls ≠ .mixed)
    {s : List (String × SpecVal ℝ)}
    (hspec : m.args.specification = encodeAll s) {alts : List ℝ} (ha : AltsOf m.data m.args.altIdCol alts)
    (h2 : m.cls = .asym → 2 ≤ alts.length)
    {chosen : ℝ → Fin m.data.numRows} (hc : OneChoicePerObs m.data m.args.obsIdCol m.args.choiceCol chosen)
    {solver : Solver} (args : FitArgs)
    (hsol : ∀ hrows obj, logitObject m hrows args.ridge = .ok obj → ∀ ps x,
      ∃ r, solver obj.n (obj.est ps).negLLAndGrad x (obj.est ps).negHessian = .ok r) :
    let d : Dims := ⟨alts.length, (specColumns alts s).length, 0, 0⟩
    let k := totalParams m.cls d (m.args.interceptRefPos != .none)
    (∃ r, logitFit solver m args = .ok r) ↔
      (∃ x, StartsFrom m.cls d args.init x ∧ x.length = k) ∧
      (m.data.colList m.args.obsIdCol).Pairwise (· ≤ ·) ∧ 0 < m.data.numRows ∧
      (m.cls ≠ .mnl → m.args.interceptRefPos = .none ∨
        ∃ z : ℤ, m.args.interceptRefPos = .int z ∧ 0 ≤ z ∧ z < alts.length) ∧
      (m.cls = .asym → ∃ z : ℤ, m.args.shapeRefPos = .int z ∧ 0 ≤ z ∧ z < alts.length) ∧
      ∀ z ∈ args.constrained.getD [], ∃ i, PosIs k z i := by
  intro d k
  have hd : fitDims m = d := by
    have hdes := (built_own hm).1.design
    rw [hspec] at hdes
    have h1 : m.design.length = (specColumns alts s).length := by
      rw [show m.design = _ from design_entries ha hdes, List.length_map, specColumns]
    simp [fitDims, altsOf_eq ha, h1, built_nest hm hn, built_mixing hm hx, nameCount, d]
  have hpos : ∀ (_ : 0 < m.data.numRows), 0 < d.numAlts := by
    intro hrows
    have := (ha.mem _).2 ⟨⟨0, hrows⟩, rfl⟩
    exact List.length_pos_of_mem this
  have hinit : 0 < m.data.numRows → ∀ x, (rawInitVals m.cls d args.init = .ok x ∧
      checkInitLength m.cls d (m.args.interceptRefPos != .none) x = .ok ()) ↔
      StartsFrom m.cls d args.init x ∧ x.length = k := by
    intro hrows x
    rw [← (fitInitVals_iff m.cls d (m.args.interceptRefPos != .none) args.init (hpos hrows)).1]
    unfold fitInitVals
    simp only [bind, Except.bind]
    constructor
    · rintro ⟨h1, h2⟩
      simp [h1, h2, pure, Except.pure]
    · intro h
      split at h
      · cases h
      rename_i y hy
      split at h
      · cases h
      rename_i hy'
      cases h
      exact ⟨hy, hy'⟩
  constructor
  · rintro ⟨r, hr⟩
    obtain ⟨x, hrows, obj, hobj, hasc, h1, h3, hrun⟩ := logit_run hr
    have hk := object_n hobj
    rw [hd] at h1 h3 hk
    obtain ⟨-, -, h4, h5⟩ := (object_iff hrows args.ridge ha).1 ⟨obj, hobj⟩
    refine ⟨⟨x, (hinit hrows x).1 ⟨h1, h3⟩⟩, hasc, hrows, h4, h5, ?_⟩
    unfold runEstimation runEstimationWith at hrun
    simp only [bind, Except.bind] at hrun
    split at hrun
    · cases hrun
    rename_i ps hps
    have := constrainedArg_exists.1 ⟨ps, hps⟩
    rw [hk] at this
    exact this
  · rintro ⟨⟨x, hx'⟩, hasc, hrows, h4, h5, hcon⟩
    obtain ⟨h1, h3⟩ := (hinit hrows x).2 hx'
    rw [← hd] at h1 h3
    obtain ⟨obj, hobj⟩ := (object_iff hrows args.ridge ha).2 ⟨hn, hx, h4, h5⟩
    have hk := object_n hobj
    rw [hd] at hk
    obtain ⟨U, Dom, -, hdesc, -⟩ := logit_describes hm hspec [] ha h2 hc hrows hobj
    change ∀ z ∈ args.constrained.getD [], ∃ i, PosIs (totalParams m.cls d (m.args.interceptRefPos != .none)) z i at hcon
    rw [← hk] at hcon
    obtain ⟨ps, hps⟩ := constrainedArg_exists.2 hcon
    have h6 : estimationChecks (args.ridge.map PyVal.num) (m.data.colList m.args.obsIdCol) .none = .ok () := by
      unfold estimationChecks
      have : ensureContiguity (m.data.colList m.args.obsIdCol) = .ok () := ensureContiguity_ok.2 hasc
      cases args.ridge <;> simp [checkRidge, this, checkWeights, bind, Except.bind]
    unfold logitFit
    simp only [bind, Except.bind, h1, h6, h3, hobj, hrows, dif_pos]
    unfold runEstimation runEstimationWith
    obtain ⟨rep, hrep⟩ := hsol hrows obj hobj ps fun k => x.getD k 0
    obtain ⟨h, -, hpr⟩ := hdesc.probs rep.x
    simp only [bind, Except.bind, hps, hrep, hpr]
    exact ⟨_, rfl⟩

/-- **C109** (which fits get results). With an optimiser that always returns, a fit of a multinomial, clog-log, scobit,
uneven or asymmetric logit model gets to its results exactly when its arguments name starting values of the documented
form and number; the ids of the table, which has rows, ascend; the reference positions, where the model uses them, are
positions among the alternatives; and every position to be held fixed exists. -/
theorem logit_fit_accepts {env : Env ℝ} {ty : String} {df : Frame ℝ} {a : ModelArgs ℝ} {m : ChoiceModel ℝ}
    (hm : createChoiceModel env ty df a = .ok m) (hn : m.cls ≠ .nested) (hx : m.cls ≠ .mixed)
    {s : List (String × SpecVal ℝ)}
    (hspec : m.args.specification = encodeAll s) {alts : List ℝ} (ha : AltsOf m.data m.args.altIdCol alts)
    (h2 : m.cls = .asym → 2 ≤ alts.length)
    {chosen : ℝ → Fin m.data.numRows} (hc : OneChoicePerObs m.data m.args.obsIdCol m.args.choiceCol chosen)
    {solver : Solver} (hsol : ∀ n f x h, ∃ r, solver n f x h = .ok r) (args : FitArgs) :
    let d : Dims := ⟨alts.length, (specColumns alts s).length, 0, 0⟩
    let k := totalParams m.cls d (m.args.interceptRefPos != .none)
    (∃ r, logitFit solver m args = .ok r) ↔
      (∃ x, StartsFrom m.cls d args.init x ∧ x.length = k) ∧
      (m.data.colList m.args.obsIdCol).Pairwise (· ≤ ·) ∧ 0 < m.data.numRows ∧
      (m.cls ≠ .mnl → m.args.interceptRefPos = .none ∨
        ∃ z : ℤ, m.args.interceptRefPos = .int z ∧ 0 ≤ z ∧ z < alts.length) ∧
      (m.cls = .asym → ∃ z : ℤ, m.args.shapeRefPos = .int z ∧ 0 ≤ z ∧ z < alts.length) ∧
      ∀ z ∈ args.constrained.getD [], ∃ i, PosIs k z i :=
  logit_accepts_of hm hn hx hspec ha h2 hc args fun _ _ _ _ _ => hsol _ _ _ _

private theorem built_names {env : Env ℝ} {ty : String} {df : Frame ℝ} {a : ModelArgs ℝ} {m : ChoiceModel ℝ}
    (h : createChoiceModel env ty df a = .ok m) {alts : List ℝ} (ha : AltsOf m.data m.args.altIdCol alts) :
    (∀ l, m.args.interceptNames = some l → l.length + 1 = alts.length) ∧
    (m.cls = .asym → ∀ l, m.args.shapeNames = some l → l.length + 1 = alts.length) ∧
    (m.cls = .scobit ∨ m.cls = .uneven → ∀ l, m.args.shapeNames = some l → l.length = alts.length) := by
  have hl := altsOf_eq ha
  unfold createChoiceModel at h
  split at h
  · cases h
  rename_i cls _
  rw [classInit_iff] at h
  obtain ⟨⟨-, hsh, -⟩, h⟩ := h
  obtain ⟨h1, h2⟩ := baseInit_ok.1 h
  obtain ⟨c1, c2, c3, -⟩ := initChecks_ok.1 h1
  obtain ⟨-, -, d, hd, -, rfl⟩ := initBuild_iff.1 h2
  have hnum : numAlternatives df (argsFor cls a).altIdCol = alts.length := by
    rw [← allIds_length, allIds, ← addIntercept_colList _ _ _ (c1 _ (by simp))]
    exact congrArg List.length hl
  rw [hnum] at c2 c3
  rw [checkNamesAndRef_ok] at c2 c3
  refine ⟨fun l e => ?_, fun e l e' => ?_, fun e l e' => ?_⟩
  · rcases c3 l e with ⟨-, h, -⟩ | ⟨z, -, -, -, h⟩
    · cases h
    · exact h
  · have e : cls = .asym := e
    subst e
    rcases c2 l e' with ⟨h, -, -⟩ | ⟨z, -, -, -, h⟩
    · obtain ⟨z, hz⟩ := hsh rfl
      simp [argsFor, hz] at h
    · exact h
  · have e : cls = .scobit ∨ cls = .uneven := e
    rcases c2 l e' with ⟨-, -, h⟩ | ⟨z, h, -⟩
    · exact h
    · rcases e with rfl | rfl <;> simp [argsFor] at h

/-- **C109** (which fits are stored). A fit of a multinomial, clog-log, scobit, uneven or asymmetric logit model that got
to its results stores them without an exception exactly when its Hessian is invertible - always, with a positive ridge
penalty. -/
theorem logit_fit_stores {env : Env ℝ} {ty : String} {df : Frame ℝ} {a : ModelArgs ℝ} {m : ChoiceModel ℝ}
    (hm : createChoiceModel env ty df a = .ok m) {s : List (String × SpecVal ℝ)}
    (hspec : m.args.specification = encodeAll s) (hkeys : (s.map Prod.fst).Nodup)
    (hnm : ∀ ns, m.args.names = some ns → (ns.map Prod.fst).Nodup)
    {alts : List ℝ} (ha : AltsOf m.data m.args.altIdCol alts) (h2 : m.cls = .asym → 2 ≤ alts.length)
    {chosen : ℝ → Fin m.data.numRows} (hc : OneChoicePerObs m.data m.args.obsIdCol m.args.choiceCol chosen)
    {solver : Solver} (label : PyVal ℝ → String) (sf : ℝ → ℝ) (before : List FitCall) (args : FitArgs)
    (hpoint : args.justPoint = false) {r : FitResults} (hr : logitFit solver m args = .ok r) :
    ((fitCall sf (logitFitCall solver m args) (fitCalls sf before (freshFit label m))).2 = none ↔
      IsUnit r.hessian.det) ∧
    (0 < args.ridge.getD 0 → IsUnit r.hessian.det) := by
  obtain ⟨x₀, hrows, obj, hobj, -, -, -, hrun⟩ := logit_run hr
  obtain ⟨hn, hx⟩ := object_class hobj
  obtain ⟨U, Dom, hU, hd, -⟩ := logit_describes hm hspec [] ha h2 hc hrows hobj
  have hdes := (built_own hm).1.design
  rw [hspec] at hdes
  have hnames : m.indVarNames.length = m.design.length :=
    one_name_per_column (by simpa [encodeAll, Function.comp_def] using hkeys) hnm hdes
  have hlen : m.design.length = (specColumns alts s).length := by
    rw [show m.design = _ from design_entries ha hdes, List.length_map, specColumns]
  have hmix : m.args.mixingVars = none := built_mixing hm hx
  obtain ⟨n1, n2, n3⟩ := built_names hm ha
  unfold runEstimation runEstimationWith at hrun
  simp only [bind, Except.bind] at hrun
  split at hrun
  · cases hrun
  rename_i ps hps
  split at hrun
  · cases hrun
  rename_i rep hrep
  obtain ⟨h, -, hpr⟩ := hd.probs rep.x
  rw [hpr] at hrun
  simp only [Except.ok.injEq] at hrun
  have hpos := constrainedArg_exists.1 ⟨ps, hps⟩
  refine ⟨?_, fun hρ => ?_⟩
  · have hout : (logitFitCall solver m args).outcome = .results r := by
      simp [logitFitCall, fitOutcome, hr, hpoint]
    simp only [fitCall, hout]
    rw [store_fit_iff]
    refine ⟨fun h => h.regular, fun hu => ?_⟩
    refine storable_congr (fitCalls_names sf before (freshFit label m)).symm ?_
    subst hrun
    obtain ⟨p, q, hp, hs, hi, hpl, hθ, -, hsp, -⟩ := hU rep.x
    constructor
    · intro p' g h1
      dsimp only at h1
      rw [hsp] at h1
      cases h1
    · intro p' g h1 h3
      dsimp only at h1
      rw [hsp] at h1
      have h1 : p.shapes = some p' := h1
      have h3 : m.args.shapeNames = some g := h3
      have hno : ¬ (m.cls = .mnl ∨ m.cls = .cloglog) := by rw [← hs, h1]; simp
      by_cases hasym : m.cls = .asym
      · obtain ⟨y, hy, z, hz, -, hl, -⟩ := hp.eta hasym
        rw [h1, Option.some.injEq] at hy
        subst hy
        have := n2 hasym g h3
        rw [hl, List.length_map, List.length_eraseIdx, if_pos hz]
        omega
      · have hsu : m.cls = .scobit ∨ m.cls = .uneven := by
          cases hc : m.cls <;> simp_all
        have hy := hp.shape hsu
        rw [h1, Option.some.injEq] at hy
        rw [hy, List.length_map]
        exact n3 hsu g h3
    · intro p' g h1 h3
      dsimp only at h1
      rw [hsp] at h1
      have h1 : p.intercepts = some p' := h1
      have h3 : m.args.interceptNames = some g := h3
      obtain ⟨z, hz, -, hl, -⟩ := hp.icpt p' h1
      have := n1 g h3
      rw [hl, List.length_map, List.length_eraseIdx, if_pos hz]
      omega
    · dsimp only
      rw [hsp]
      simp [addMixingNames, freshFit, modelNames, hmix, hnames, hpl, hlen]
    · dsimp only
      rw [hsp]
      have := congrArg List.length hθ
      simp only [List.length_ofFn, List.length_append] at this
      simpa using this
    · exact hu
    · intro cs e pos hmem
      have e' : args.constrained = some cs := e
      rw [e'] at hpos
      obtain ⟨i, hi⟩ := hpos pos hmem
      have := i.2
      unfold PosIs at hi
      show -((obj.n : ℕ) : ℤ) ≤ pos ∧ pos < (obj.n : ℕ)
      omega
  · subst hrun
    exact (hd.hessian ps rep.x).regular (by linarith)

/-- **C109** (the penalty on record). A call of `fit_mle` that is given no keyword for other models leaves its ridge
penalty in the attribute of the model, whatever becomes of the fit. -/
theorem logit_fit_sets_ridge (solver : Solver) (m : ChoiceModel ℝ) (sf : ℝ → ℝ) (s : FitState) (args : FitArgs)
    (_ : m.cls = .mnl → args.init.shapes = none ∧ args.init.intercepts = none ∧ args.init.coefs = none)
    (_ : m.cls = .cloglog → args.init.shapes = none) :
    (fitCall sf (logitFitCall solver m args) s).1.ridgeParam = args.ridge := by
  unfold fitCall
  split <;> rfl

/-! ## A concrete fit -/

private theorem exChosen_lists : AltsOf exChosen "alt" [1, 2] ∧ AltsOf exChosen "obs" [1] := by
  refine ⟨⟨by simp, fun x => ⟨?_, ?_⟩⟩, ⟨by simp, fun x => ⟨?_, ?_⟩⟩⟩
  · intro hx
    rcases List.mem_cons.1 hx with rfl | hx
    · exact ⟨(0 : Fin 2), rfl⟩
    · rw [List.mem_singleton.1 hx]; exact ⟨(1 : Fin 2), rfl⟩
  · rintro ⟨r, rfl⟩
    change Fin 2 at r
    fin_cases r <;> simp [exChosen]
  · intro hx
    rw [List.mem_singleton.1 hx]
    exact ⟨(0 : Fin 2), rfl⟩
  · rintro ⟨r, rfl⟩
    change Fin 2 at r
    fin_cases r <;> simp [exChosen]

/-- An asymmetric model with an outside intercept for the first and a named shape for the second alternative. -/
def exAsymArgs : ModelArgs ℝ :=
  { exLogitArgs with interceptRefPos := .int 1, shapeRefPos := .int 0, shapeNames := some ["bus"] }

/-- Non-vacuity of `logit_fit_accepts`, `logit_fit_stores` and `logit_fit_report`: a fit of the asymmetric model on a
table of one observation, with ridge penalty 1, that stays at the starting values, given in groups, and after one that
stored other results and one that failed. -/
example (env : Env ℝ) (henv : env.badCol = fun _ => false) (label : PyVal ℝ → String) (sf : ℝ → ℝ) :
    ∃ m, createChoiceModel env "Asym" exChosen exAsymArgs = .ok m ∧
      let before := [logitFitCall exStaying m ⟨⟨some [7, 8, 9], none, none, none⟩, some 2, some [-1], false⟩,
        logitFitCall exStaying m ⟨⟨some [7, 8], none, none, none⟩, none, none, false⟩]
      let c := logitFitCall exStaying m
        ⟨⟨none, some (some [3]), some (some [4]), some (some [5])⟩, some 1, some [0, -1], false⟩
      (fitCall sf c (fitCalls sf before (freshFit label m))).2 = none ∧
      ∃ (n : ℕ) (x : Fin n → ℝ) (labels : _) (H F : _) (U : _),
        DocumentedUtilities m [1, 2] (specColumns [1, 2] [("x", .allSame)]) U ∧
        List.ofFn labels = parameterLabels label m 2 ∧
        FitReport (tableOf m [1]) (some 1) U labels x (fitCalls sf (before ++ c :: []) (freshFit label m)).attrs ∧
        InferenceReport sf labels (some [0, -1]) x H F
          (fitCalls sf (before ++ c :: []) (freshFit label m)).attrs := by
  obtain ⟨d, hd, hlen⟩ : ∃ d, createDesignMatrix env.fmt env.fmtList exChosen
      (encodeAll [("x", SpecVal.allSame)]) "alt" none = .ok d ∧ d.1.length = 1 :=
    ⟨_, design_success env.fmt env.fmtList exChosen [("x", .allSame)] "alt" [1, 2] exChosen_lists.1
      (by simp [exChosen]) (by simp [exChosen]) (by simp [SpecVal.ValidFor])
      (by simp [SpecVal.columns]), by simp [SpecVal.columns]⟩
  have hk : modelTypeToClass.lookup "Asym" = some .asym := by decide
  have hint : addIntercept (encodeAll [("x", (SpecVal.allSame : SpecVal ℝ))]) exChosen = exChosen := by
    simp [addIntercept, encodeAll]
  have hargs : argsFor .asym exAsymArgs = exAsymArgs := rfl
  have hna : numAlternatives exChosen "alt" = 2 := by
    rw [← allIds_length, allIds, altsOf_eq exChosen_lists.1]; rfl
  obtain ⟨m, hmd⟩ : ∃ m : ChoiceModel ℝ, m = ⟨.asym, displayNameOf (classOf .asym), exChosen, d.1, d.2, exAsymArgs, none⟩ :=
    ⟨_, rfl⟩
  have hm : createChoiceModel env "Asym" exChosen exAsymArgs = .ok m := by
    rw [hmd]
    simp only [createChoiceModel, hk]
    rw [classInit_iff, hargs]
    refine ⟨by simp [exAsymArgs], baseInit_ok.2 ⟨initChecks_ok.2 ⟨?_, ?_, ?_, ?_⟩, ?_⟩⟩
    · simp [exAsymArgs, exLogitArgs, exChosen]
    · rw [checkNamesAndRef_ok]
      intro l hl
      obtain rfl : ["bus"] = l := by simpa [exAsymArgs] using hl
      exact Or.inr ⟨0, rfl, le_refl _, by simp [exAsymArgs, exLogitArgs, hna], by simp [exAsymArgs, exLogitArgs, hna]⟩
    · simp [exAsymArgs, exLogitArgs, checkNamesAndRef]
    · simp [exAsymArgs, exLogitArgs, checkNestSpecArg]
    · have : addIntercept exAsymArgs.specification exChosen = exChosen := hint
      rw [this, initBuild_iff]
      refine ⟨?_, ?_, d, hd, ?_, rfl⟩
      · simp [exAsymArgs, exLogitArgs, exChosen, encodeAll]
      · simp [henv]
      · simp [exAsymArgs, exLogitArgs]
  refine ⟨m, hm, ?_⟩
  intro before c
  have hcls : m.cls = .asym := by rw [hmd]
  have hspec : m.args.specification = encodeAll [("x", .allSame)] := by rw [hmd]; rfl
  have ha : AltsOf m.data m.args.altIdCol [1, 2] := by rw [hmd]; exact exChosen_lists.1
  have hi : AltsOf m.data m.args.obsIdCol [1] := by rw [hmd]; exact exChosen_lists.2
  have h2 : m.cls = .asym → 2 ≤ ([1, 2] : List ℝ).length := by simp
  obtain ⟨chosen, hc⟩ : ∃ chosen, OneChoicePerObs m.data m.args.obsIdCol m.args.choiceCol chosen := by
    rw [hmd]
    refine ⟨fun _ => (1 : Fin 2), ?_, ?_, ?_⟩ <;> intro r <;> change Fin 2 at r <;> fin_cases r <;>
      simp [exChosen, exAsymArgs, exLogitArgs]
  have hcol : (specColumns [1, 2] [("x", (SpecVal.allSame : SpecVal ℝ))]).length = 1 := by
    simp [specColumns, SpecVal.columns]
  have hicpt : m.args.interceptRefPos = .int 1 := by rw [hmd]; rfl
  obtain ⟨r, hr⟩ : ∃ r, logitFit exStaying m
      ⟨⟨none, some (some [3]), some (some [4]), some (some [5])⟩, some 1, some [0, -1], false⟩ = .ok r := by
    refine (logit_fit_accepts hm (by rw [hcls]; decide) (by rw [hcls]; decide) hspec ha h2 hc
      (fun n f x h => ⟨_, rfl⟩) _).2 ⟨⟨[3, 4, 5], ?_, ?_⟩, ?_, ?_, ?_, ?_, ?_⟩
    · rw [hcls]
      exact StartsFrom.shapeGroups _ _ [3] (some (some [4])) [5] (by simp [HasShapes]) (by simp [shapeCount])
        (by simp [hcol]) (by simp)
    · simp [hcls, totalParams, hcol, hicpt]
    · rw [hmd]; simp [exChosen, exAsymArgs, exLogitArgs, Frame.colList]
    · rw [hmd]; simp [exChosen]
    · exact fun _ => Or.inr ⟨1, hicpt, by norm_num, by norm_num⟩
    · exact fun _ => ⟨0, by rw [hmd]; rfl, by norm_num, by norm_num⟩
    · rw [hcls, hicpt]
      simp only [totalParams, hcol, Option.getD_some]
      intro z hz
      rcases List.mem_cons.1 hz with rfl | hz
      · exact ⟨⟨0, by simp⟩, Or.inl rfl⟩
      · obtain rfl := List.mem_singleton.1 hz
        exact ⟨⟨2, by simp [hcol]⟩, Or.inr (by simp [hcol])⟩
  have hst : (fitCall sf c (fitCalls sf before (freshFit label m))).2 = none := by
    obtain ⟨h1, h3⟩ := logit_fit_stores hm hspec (by simp) (by intro ns h; rw [hmd] at h; cases h) ha h2 hc label sf
      before _ rfl hr
    exact h1.2 (h3 (by simp))
  refine ⟨hst, ?_⟩
  obtain ⟨n, x, labels, H, F, U, h3, h4, -, h1, -, -, h5, -⟩ := logit_fit_report hm hspec ha h2 hi hc exStaying_faithful
    label sf before [] _ rfl hst (by simp)
  exact ⟨n, x, labels, H, F, U, h3, h4, h1, h5 (by simp)⟩

end

end Pylogit
