import Verif.Props.Definiteness

/-!
# C21, C30: row order and replicated observations

A second data set is described by a map `π` sending each of its rows to the row of the original
data it is a copy of.  All per-row inputs of the second data set are those of the original row.
-/

set_option linter.unusedSectionVars false

open Finset Matrix Function

namespace Pylogit

open Spec

variable {R R' O O' A K S I ι P : Type} [Fintype R] [DecidableEq R] [Fintype O] [DecidableEq O]
  [Fintype R'] [DecidableEq R'] [Fintype O'] [DecidableEq O']
  [Fintype K] [DecidableEq K] [Fintype S] [DecidableEq S] [Fintype I] [DecidableEq I]
  [Fintype A] [Fintype P] [DecidableEq P]

/-- The transformation treats copied rows like the original ones. -/
def Spec.SameOnCopies (π : R' → R) (T' : Transform R' A S I ι) (T : Transform R A S I ι)
    (ids : R → ι) (rta : Matrix R A ℝ) (shape : Option (S → ℝ)) (icpt : Option (I → ℝ)) : Prop :=
  ∀ v, T' (v ∘ π) (ids ∘ π) (rta.submatrix π id) shape icpt = T v ids rta shape icpt ∘ π

/-- The derivative matrices of the copied data are those of the original rows. -/
structure Spec.DerivsOnCopies (π : R' → R) (d' : Derivs R' S I) (d : Derivs R S I)
    (X : Matrix R K ℝ) : Prop where
  c : d'.dhdc = d.dhdc.submatrix π id
  a : d'.dhdalpha = d.dhdalpha.submatrix π id
  v : d'.dhdv * X.submatrix π id = (d.dhdv * X).submatrix π id

theorem mulVec_submatrix {Q : Type} [Fintype Q] (M : Matrix R Q ℝ) (π : R' → R) (x : Q → ℝ) :
    M.submatrix π id *ᵥ x = (M *ᵥ x) ∘ π := rfl

/-! ## Every model treats copied rows alike -/

variable {n : ℕ}

theorem mnl_same (π : R' → R) (ids : R → ι) (rta : Matrix R A ℝ) (shape : Option (S → ℝ))
    (icpt : Option (I → ℝ)) :
    SameOnCopies π mnlTransform mnlTransform ids rta shape icpt := fun _ => rfl

theorem scobit_same (π : R' → R) (ref : Option (Fin (n + 1))) (ids : R → ι)
    (rta : Matrix R (Fin (n + 1)) ℝ) (shape : Option (Fin (n + 1) → ℝ))
    (icpt : Option (Fin n → ℝ)) :
    SameOnCopies π (scobitTransform ref) (scobitTransform ref) ids rta shape icpt := by
  intro v; cases shape <;> rfl

theorem uneven_same (π : R' → R) (ref : Option (Fin (n + 1))) (ids : R → ι)
    (rta : Matrix R (Fin (n + 1)) ℝ) (shape : Option (Fin (n + 1) → ℝ))
    (icpt : Option (Fin n → ℝ)) :
    SameOnCopies π (unevenTransform ref) (unevenTransform ref) ids rta shape icpt := by
  intro v; cases shape <;> rfl

theorem clog_same (π : R' → R) (ref : Option (Fin (n + 1))) (ids : R → ι)
    (rta : Matrix R (Fin (n + 1)) ℝ) (shape : Option (S → ℝ)) (icpt : Option (Fin n → ℝ)) :
    SameOnCopies π (clogTransform ref) (clogTransform ref) ids rta shape icpt := fun _ => rfl

theorem asym_same (π : R' → R) (sref : Fin (n + 1)) (ref : Option (Fin (n + 1))) (ids : R → ι)
    (rta : Matrix R (Fin (n + 1)) ℝ) (shape : Option (Fin n → ℝ)) (icpt : Option (Fin n → ℝ)) :
    SameOnCopies π (asymTransform sref ref) (asymTransform sref ref) ids rta shape icpt := by
  intro v; cases shape <;> rfl

theorem diag_same (π : R' → R) (g : R → ℝ) (X : Matrix R K ℝ) :
    Matrix.diagonal (g ∘ π) * X.submatrix π id = (Matrix.diagonal g * X).submatrix π id := by
  ext r k; simp [Matrix.diagonal_mul]

theorem mnl_derivs_same (π : R' → R) (X : Matrix R K ℝ) :
    DerivsOnCopies (S := Empty) (I := Empty) π mnlDerivs mnlDerivs X where
  c := by ext _ i; exact i.elim
  a := by ext _ i; exact i.elim
  v := by simp [mnlDerivs]

theorem scobit_derivs_same (π : R' → R) (ref : Fin (n + 1)) (rta : Matrix R (Fin (n + 1)) ℝ)
    (s : Fin (n + 1) → ℝ) (v : R → ℝ) (X : Matrix R K ℝ) :
    DerivsOnCopies π (scobitDerivs ref (rta.submatrix π id) s (v ∘ π)) (scobitDerivs ref rta s v) X where
  c := rfl
  a := rfl
  v := diag_same π (fun r => scobitDerivV ((rta *ᵥ fun j => Real.exp (s j)) r) (v r)) X

theorem uneven_derivs_same (π : R' → R) (ref : Fin (n + 1)) (rta : Matrix R (Fin (n + 1)) ℝ)
    (s : Fin (n + 1) → ℝ) (v : R → ℝ) (X : Matrix R K ℝ) :
    DerivsOnCopies π (unevenDerivs ref (rta.submatrix π id) s (v ∘ π)) (unevenDerivs ref rta s v) X where
  c := rfl
  a := rfl
  v := diag_same π (fun r => unevenDerivV ((rta *ᵥ fun j => Real.exp (s j)) r) (v r)) X

theorem clog_derivs_same (π : R' → R) (ref : Fin (n + 1)) (rta : Matrix R (Fin (n + 1)) ℝ)
    (v : R → ℝ) (X : Matrix R K ℝ) :
    DerivsOnCopies π (clogDerivs ref (rta.submatrix π id) (v ∘ π)) (clogDerivs ref rta v) X where
  c := by ext _ i; exact i.elim
  a := rfl
  v := diag_same π (fun r => clogDerivV (v r)) X

theorem asym_derivs_same (π : R' → R) (sref ref : Fin (n + 1)) (rta : Matrix R (Fin (n + 1)) ℝ)
    (eta : Fin n → ℝ) (v : R → ℝ) (X : Matrix R K ℝ) :
    DerivsOnCopies π (asymDerivs sref ref (rta.submatrix π id) eta (v ∘ π))
      (asymDerivs sref ref rta eta v) X where
  c := rfl
  a := rfl
  v := diag_same π (fun r => asymDerivV (n + 1) ((rta *ᵥ convertEtaToC sref eta) r) (v r)) X

/-! ## Copies of observations -/

/-- The second data set consists of copies of observations of the first: each new observation `o'`
is a copy of observation `ρ o'` and has exactly one copy of each of its rows; observation `o` has
`k o` copies. -/
structure Spec.Copies (f : R → O) (f' : R' → O') (π : R' → R) (ρ : O' → O) (k : O → ℕ) : Prop where
  comm : ∀ x, ρ (f' x) = f (π x)
  bij : ∀ o' r, f r = ρ o' → ∃! x, f' x = o' ∧ π x = r
  count : ∀ o, (univ.filter fun o' => ρ o' = o).card = k o

/-- Copies exist for every data set and all multiplicities. -/
theorem copies_exist (f : R → O) (k : O → ℕ) :
    Copies (R' := Σ r : R, Fin (k (f r))) (O' := Σ o : O, Fin (k o)) f
      (fun x => ⟨f x.1, x.2⟩) (fun x => x.1) (fun x => x.1) k where
  comm := fun _ => rfl
  bij := by
    rintro ⟨o, j⟩ r rfl
    refine ⟨⟨r, j⟩, ⟨rfl, rfl⟩, ?_⟩
    rintro ⟨r', j'⟩ ⟨h1, rfl⟩
    simp only [Sigma.mk.injEq, heq_eq_eq, true_and] at h1 ⊢
    exact h1
  count := by
    intro o
    have : (univ.filter fun o' : Σ o : O, Fin (k o) => o'.1 = o) =
        (univ : Finset (Fin (k o))).map ⟨fun j => ⟨o, j⟩, fun a b h => by simpa using h⟩ := by
      ext ⟨o', j⟩
      simp only [mem_filter, mem_univ, true_and, mem_map, Embedding.coeFn_mk]
      constructor
      · rintro rfl; exact ⟨j, rfl⟩
      · rintro ⟨_, h⟩; exact (congrArg Sigma.fst h).symm
    rw [this, card_map, card_univ, Fintype.card_fin]

section copies

variable {f : R → O} {f' : R' → O'} {π : R' → R} {ρ : O' → O} {k : O → ℕ}

theorem copies_sum_obs (hk : Copies f f' π ρ k) (o' : O') (F : R → ℝ) :
    ∑ x ∈ rowsOf f' o', F (π x) = ∑ r ∈ rowsOf f (ρ o'), F r := by
  refine Finset.sum_bij (fun x _ => π x) ?_ ?_ ?_ (fun _ _ => rfl)
  · intro x hx
    rw [mem_rowsOf, ← hk.comm, mem_rowsOf.1 hx]
  · intro x hx y hy hxy
    obtain ⟨z, -, hz⟩ := hk.bij o' (π x) (by rw [← hk.comm, mem_rowsOf.1 hx])
    rw [hz x ⟨mem_rowsOf.1 hx, rfl⟩, hz y ⟨mem_rowsOf.1 hy, hxy.symm⟩]
  · intro r hr
    obtain ⟨x, hx, -⟩ := hk.bij o' r (mem_rowsOf.1 hr)
    exact ⟨x, mem_rowsOf.2 hx.1, hx.2⟩

theorem copies_sum_over_obs (hk : Copies f f' π ρ k) (G : O → ℝ) :
    ∑ o', G (ρ o') = ∑ o, (k o : ℝ) * G o := by
  rw [← Finset.sum_fiberwise_of_maps_to (t := univ) (g := ρ) (fun _ _ => mem_univ _)]
  refine Finset.sum_congr rfl fun o _ => ?_
  rw [← hk.count o, Finset.sum_congr rfl (g := fun _ => G o)
    (fun o' ho' => by rw [(mem_filter.1 ho').2]), Finset.sum_const, nsmul_eq_mul]

theorem copies_sum_rows (hk : Copies f f' π ρ k) (F : R → ℝ) :
    ∑ x, F (π x) = ∑ r, (k (f r) : ℝ) * F r := by
  rw [sum_fiber f', sum_fiber f]
  simp only [copies_sum_obs hk]
  rw [copies_sum_over_obs hk fun o => ∑ r ∈ rowsOf f o, F r]
  refine Finset.sum_congr rfl fun o _ => ?_
  rw [Finset.mul_sum]
  exact Finset.sum_congr rfl fun r hr => by rw [mem_rowsOf.1 hr]

theorem copies_longProbs {M : Matrix R O ℝ} {M' : Matrix R' O' ℝ} (hM : Indicates M f)
    (hM' : Indicates M' f') (hk : Copies f f' π ρ k) (h : R → ℝ) :
    longProbs M' (h ∘ π) = longProbs M h ∘ π := by
  funext x
  rw [longProbs_eq hM', Function.comp_apply, longProbs_eq hM, ← hk.comm]
  congr 1
  exact copies_sum_obs hk (f' x) (longExponentials h)

/-- **C30** (probabilities). A copied row has the probability of the original row. -/
theorem copies_probs {M : Matrix R O ℝ} {M' : Matrix R' O' ℝ} (hM : Indicates M f)
    (hM' : Indicates M' f') (hk : Copies f f' π ρ k) (β : K → ℝ) (X : Matrix R K ℝ) (ids : R → ι)
    (rta : Matrix R A ℝ) {T' : Transform R' A S I ι} {T : Transform R A S I ι}
    (icpt : Option (I → ℝ)) (shape : Option (S → ℝ)) (hT : SameOnCopies π T' T ids rta shape icpt) :
    modelProbs β (X.submatrix π id) (ids ∘ π) M' (rta.submatrix π id) T' icpt shape =
      modelProbs β X ids M rta T icpt shape ∘ π := by
  rw [modelProbs, modelProbs, mulVec_submatrix, hT, copies_longProbs hM hM' hk]

/-- **C30** (log-likelihood). Copying observation `o` `k o` times gives the same log-likelihood as
weighting each of its rows by `k o`. -/
theorem copies_loglik {M : Matrix R O ℝ} {M' : Matrix R' O' ℝ} (hM : Indicates M f)
    (hM' : Indicates M' f') (hk : Copies f f' π ρ k) (β : K → ℝ) (X : Matrix R K ℝ) (ids : R → ι)
    (rta : Matrix R A ℝ) (choice : R → ℝ) {T' : Transform R' A S I ι} {T : Transform R A S I ι}
    (icpt : Option (I → ℝ)) (shape : Option (S → ℝ)) (hT : SameOnCopies π T' T ids rta shape icpt)
    (ridge : Option ℝ) :
    calcLogLikelihood β (X.submatrix π id) (ids ∘ π) M' (rta.submatrix π id) (choice ∘ π) T' icpt shape
        ridge none
      = calcLogLikelihood β X ids M rta choice T icpt shape ridge (some fun r => (k (f r) : ℝ)) := by
  have e := copies_sum_rows hk fun r => choice r * Real.log (modelProbs β X ids M rta T icpt shape r)
  simp only [calcLogLikelihood, copies_probs hM hM' hk β X ids rta icpt shape hT, defaultWeights,
    Option.getD_none, Option.getD_some, one_mul, Function.comp_apply]
  simp only [e, mul_left_comm]

theorem copies_grad {p choice : R → ℝ} (hk : Copies f f' π ρ k) (J : Matrix R P ℝ) :
    dLLdh none (choice ∘ π) (p ∘ π) ᵥ* J.submatrix π id =
      dLLdh (some fun r => (k (f r) : ℝ)) choice p ᵥ* J := by
  funext i
  simp only [vecMul, dotProduct, dLLdh, defaultWeights, Option.getD_none, Option.getD_some, one_mul,
    Function.comp_apply, submatrix_apply, id]
  rw [copies_sum_rows hk fun r => (choice r - p r) * J r i]
  exact Finset.sum_congr rfl fun r _ => by ring

/-- **C30** (gradient), all four parameter layouts. -/
theorem copies_gradient {p choice : R → ℝ} (hk : Copies f f' π ρ k) {X : Matrix R K ℝ}
    {d' : Derivs R' S I} {d : Derivs R S I} (hd : DerivsOnCopies π d' d X) (ridge : Option ℝ)
    (s : S → ℝ) (a : I → ℝ) (β : K → ℝ) :
    gradientBoth d' (X.submatrix π id) (choice ∘ π) (p ∘ π) none ridge s a β =
        gradientBoth d X choice p (some fun r => (k (f r) : ℝ)) ridge s a β ∧
    gradientShape d' (X.submatrix π id) (choice ∘ π) (p ∘ π) none ridge s β =
        gradientShape d X choice p (some fun r => (k (f r) : ℝ)) ridge s β ∧
    gradientIcpt d' (X.submatrix π id) (choice ∘ π) (p ∘ π) none ridge a β =
        gradientIcpt d X choice p (some fun r => (k (f r) : ℝ)) ridge a β ∧
    gradientNone d' (X.submatrix π id) (choice ∘ π) (p ∘ π) none ridge β =
        gradientNone d X choice p (some fun r => (k (f r) : ℝ)) ridge β := by
  refine ⟨?_, ?_, ?_, ?_⟩ <;>
  simp only [gradientBoth, gradientShape, gradientIcpt, gradientNone, hd.c, hd.a, hd.v, copies_grad hk]

theorem copies_negQuad {Q : Type} {M : Matrix R O ℝ} {M' : Matrix R' O' ℝ} (hM : Indicates M f)
    (hM' : Indicates M' f') (hk : Copies f f' π ρ k) (J : Matrix R P ℝ) (L : Matrix R Q ℝ)
    (p : R → ℝ) :
    negQuad (J.submatrix π id) (L.submatrix π id) (p ∘ π) M' none =
      negQuad J L p M (some fun r => (k (f r) : ℝ)) := by
  ext i j
  rw [negQuad_apply hM', negQuad_apply hM]
  congr 1
  simp only [defaultWeights, Option.getD_none, Option.getD_some, one_mul, Function.comp_apply,
    submatrix_apply, id]
  simp only [copies_sum_obs hk _ fun r => p r * J r i * L r j, copies_sum_obs hk _ fun r => p r * J r i,
    copies_sum_obs hk _ fun r => p r * L r j]
  rw [copies_sum_over_obs hk fun o => ∑ r ∈ rowsOf f o, p r * J r i * L r j -
      (∑ r ∈ rowsOf f o, p r * J r i) * ∑ r ∈ rowsOf f o, p r * L r j]
  refine Finset.sum_congr rfl fun o _ => ?_
  have e : ∀ g : R → ℝ, ∑ r ∈ rowsOf f o, (k (f r) : ℝ) * g r = k o * ∑ r ∈ rowsOf f o, g r := by
    intro g
    rw [Finset.mul_sum]
    exact Finset.sum_congr rfl fun r hr => by rw [mem_rowsOf.1 hr]
  simp only [mul_assoc]
  rw [e fun r => p r * (J r i * L r j), e fun r => p r * J r i]
  ring

/-- **C30** (Hessian), all four parameter layouts. -/
theorem copies_hessian {M : Matrix R O ℝ} {M' : Matrix R' O' ℝ} (hM : Indicates M f)
    (hM' : Indicates M' f') (hk : Copies f f' π ρ k) (p : R → ℝ) {X : Matrix R K ℝ}
    {d' : Derivs R' S I} {d : Derivs R S I} (hd : DerivsOnCopies π d' d X) (ridge : Option ℝ) :
    hessianBoth d' (X.submatrix π id) (p ∘ π) M' ridge none =
        hessianBoth d X p M ridge (some fun r => (k (f r) : ℝ)) ∧
    hessianShape d' (X.submatrix π id) (p ∘ π) M' ridge none =
        hessianShape d X p M ridge (some fun r => (k (f r) : ℝ)) ∧
    hessianIcpt d' (X.submatrix π id) (p ∘ π) M' ridge none =
        hessianIcpt d X p M ridge (some fun r => (k (f r) : ℝ)) ∧
    hessianNone d' (X.submatrix π id) (p ∘ π) M' ridge none =
        hessianNone d X p M ridge (some fun r => (k (f r) : ℝ)) := by
  refine ⟨?_, ?_, ?_, ?_⟩ <;>
  simp only [hessianBoth, hessianShape, hessianIcpt, hessianNone, hd.c, hd.a, hd.v,
    copies_negQuad hM hM' hk]

/-- **C30** (Fisher information), stacked derivative matrix `J`, as used by all four layouts. -/
theorem copies_fisher [Nonempty R] [Nonempty R'] {M : Matrix R O ℝ} {M' : Matrix R' O' ℝ}
    (hM : Indicates M f) (hM' : Indicates M' f') (hf : Surjective f) (hf' : Surjective f')
    (hk : Copies f f' π ρ k) (p choice : R → ℝ) (J : Matrix R P ℝ) (ridge : Option ℝ) :
    fisherCore (J.submatrix π id) (choice ∘ π) (p ∘ π) M' ridge none =
      fisherCore J choice p M ridge (some fun r => (k (f r) : ℝ)) := by
  ext i j
  rw [fisher_formula hM' hf' (by simp [ObsWeights]) (by simp [NonnegWeights]) _ _ _ _ (fun _ => 1)
      (by simp [defaultWeights]),
    fisher_formula hM hf (by intro w h r s hrs; cases h; simp [hrs])
      (by intro w h r; cases h; positivity) _ _ _ _ (fun o => (k o : ℝ)) (by simp [defaultWeights])]
  congr 1
  rw [← copies_sum_over_obs hk fun o => obsScore f choice p J o i * obsScore f choice p J o j]
  refine Finset.sum_congr rfl fun o' _ => ?_
  simp only [obsScore, Function.comp_apply, submatrix_apply, id, one_mul]
  rw [copies_sum_obs hk o' fun r => (choice r - p r) * J r i,
    copies_sum_obs hk o' fun r => (choice r - p r) * J r j]

end copies

/-! ## C21: reordering rows and relabelling observations -/

theorem perm_longProbs (e : R' ≃ R) (g : O' ≃ O) (M : Matrix R O ℝ) (h : R → ℝ) :
    longProbs (M.submatrix e g) (h ∘ e) = longProbs M h ∘ e := by
  have h1 : individualDenominators (M.submatrix e g) (h ∘ e) = individualDenominators M h ∘ g := by
    funext o
    simp only [individualDenominators, mulVec, dotProduct, Function.comp_apply, transpose_apply, submatrix_apply]
    exact Equiv.sum_comp e fun r => M r (g o) * longExponentials h r
  have h2 : ∀ r, (M.submatrix e g *ᵥ (individualDenominators M h ∘ g)) r =
      (M *ᵥ individualDenominators M h) (e r) := by
    intro r
    exact Equiv.sum_comp g fun o => M (e r) o * individualDenominators M h o
  funext r
  simp only [longProbs, rawLongProbs, h1, h2, Function.comp_apply]
  rfl

/-- **C21** (probabilities). For every reordering `e` of the rows and relabelling `g` of the
observations, and any mapping matrices. -/
theorem perm_probs (e : R' ≃ R) (g : O' ≃ O) (M : Matrix R O ℝ) (β : K → ℝ) (X : Matrix R K ℝ)
    (ids : R → ι) (rta : Matrix R A ℝ) {T' : Transform R' A S I ι} {T : Transform R A S I ι}
    (icpt : Option (I → ℝ)) (shape : Option (S → ℝ)) (hT : SameOnCopies e T' T ids rta shape icpt) :
    modelProbs β (X.submatrix e id) (ids ∘ e) (M.submatrix e g) (rta.submatrix e id) T' icpt shape =
      modelProbs β X ids M rta T icpt shape ∘ e := by
  rw [modelProbs, modelProbs, mulVec_submatrix, hT, perm_longProbs]

/-- **C21** (log-likelihood). -/
theorem perm_loglik (e : R' ≃ R) (g : O' ≃ O) (M : Matrix R O ℝ) (β : K → ℝ) (X : Matrix R K ℝ)
    (ids : R → ι) (rta : Matrix R A ℝ) (choice : R → ℝ) {T' : Transform R' A S I ι}
    {T : Transform R A S I ι} (icpt : Option (I → ℝ)) (shape : Option (S → ℝ))
    (hT : SameOnCopies e T' T ids rta shape icpt) (ridge : Option ℝ) (weights : Option (R → ℝ)) :
    calcLogLikelihood β (X.submatrix e id) (ids ∘ e) (M.submatrix e g) (rta.submatrix e id)
        (choice ∘ e) T' icpt shape ridge (weights.map (· ∘ e))
      = calcLogLikelihood β X ids M rta choice T icpt shape ridge weights := by
  have hw : defaultWeights (weights.map (· ∘ e)) = defaultWeights weights ∘ e := by
    cases weights <;> rfl
  simp only [calcLogLikelihood, perm_probs e g M β X ids rta icpt shape hT, hw, Function.comp_apply]
  rw [Equiv.sum_comp e fun r => choice r * (defaultWeights weights r * Real.log _)]

theorem perm_grad (e : R' ≃ R) (choice p : R → ℝ) (weights : Option (R → ℝ)) (J : Matrix R P ℝ) :
    dLLdh (weights.map (· ∘ e)) (choice ∘ e) (p ∘ e) ᵥ* J.submatrix e id =
      dLLdh weights choice p ᵥ* J := by
  have hw : defaultWeights (weights.map (· ∘ e)) = defaultWeights weights ∘ e := by
    cases weights <;> rfl
  funext i
  simp only [vecMul, dotProduct, dLLdh, hw, Function.comp_apply, submatrix_apply, id]
  exact Equiv.sum_comp e fun r => defaultWeights weights r * (choice r - p r) * J r i

/-- **C21** (gradient), all four parameter layouts. -/
theorem perm_gradient (e : R' ≃ R) (choice p : R → ℝ) (weights : Option (R → ℝ)) {X : Matrix R K ℝ}
    {d' : Derivs R' S I} {d : Derivs R S I} (hd : DerivsOnCopies e d' d X) (ridge : Option ℝ)
    (s : S → ℝ) (a : I → ℝ) (β : K → ℝ) :
    gradientBoth d' (X.submatrix e id) (choice ∘ e) (p ∘ e) (weights.map (· ∘ e)) ridge s a β =
        gradientBoth d X choice p weights ridge s a β ∧
    gradientShape d' (X.submatrix e id) (choice ∘ e) (p ∘ e) (weights.map (· ∘ e)) ridge s β =
        gradientShape d X choice p weights ridge s β ∧
    gradientIcpt d' (X.submatrix e id) (choice ∘ e) (p ∘ e) (weights.map (· ∘ e)) ridge a β =
        gradientIcpt d X choice p weights ridge a β ∧
    gradientNone d' (X.submatrix e id) (choice ∘ e) (p ∘ e) (weights.map (· ∘ e)) ridge β =
        gradientNone d X choice p weights ridge β := by
  refine ⟨?_, ?_, ?_, ?_⟩ <;>
  simp only [gradientBoth, gradientShape, gradientIcpt, gradientNone, hd.c, hd.a, hd.v, perm_grad]

theorem perm_negQuad {Q : Type} (e : R' ≃ R) (g : O' ≃ O) (M : Matrix R O ℝ) (J : Matrix R P ℝ)
    (L : Matrix R Q ℝ) (p : R → ℝ) (weights : Option (R → ℝ)) :
    negQuad (J.submatrix e id) (L.submatrix e id) (p ∘ e) (M.submatrix e g) (weights.map (· ∘ e)) =
      negQuad J L p M weights := by
  have hw : defaultWeights (weights.map (· ∘ e)) = defaultWeights weights ∘ e := by
    cases weights <;> rfl
  simp only [negQuad, quadraticProd, hw]
  congr 2
  · ext i j
    exact Equiv.sum_comp e fun r => (J r i * (defaultWeights weights r * p r)) * L r j
  · ext i j
    have h1 : ∀ o, (∑ x, J (e x) i * (M (e x) (g o) * (defaultWeights weights (e x) * p (e x)))) *
        (∑ x, (M (e x) (g o) * p (e x)) * L (e x) j) =
        (∑ r, J r i * (M r (g o) * (defaultWeights weights r * p r))) *
        (∑ r, (M r (g o) * p r) * L r j) := by
      intro o
      rw [Equiv.sum_comp e fun r => J r i * (M r (g o) * (defaultWeights weights r * p r)),
        Equiv.sum_comp e fun r => (M r (g o) * p r) * L r j]
    exact (Finset.sum_congr rfl fun o _ => h1 o).trans (Equiv.sum_comp g fun o =>
      (∑ r, J r i * (M r o * (defaultWeights weights r * p r))) * (∑ r, (M r o * p r) * L r j))

/-- **C21** (Hessian), all four parameter layouts. -/
theorem perm_hessian (e : R' ≃ R) (g : O' ≃ O) (M : Matrix R O ℝ) (p : R → ℝ)
    (weights : Option (R → ℝ)) {X : Matrix R K ℝ} {d' : Derivs R' S I} {d : Derivs R S I}
    (hd : DerivsOnCopies e d' d X) (ridge : Option ℝ) :
    hessianBoth d' (X.submatrix e id) (p ∘ e) (M.submatrix e g) ridge (weights.map (· ∘ e)) =
        hessianBoth d X p M ridge weights ∧
    hessianShape d' (X.submatrix e id) (p ∘ e) (M.submatrix e g) ridge (weights.map (· ∘ e)) =
        hessianShape d X p M ridge weights ∧
    hessianIcpt d' (X.submatrix e id) (p ∘ e) (M.submatrix e g) ridge (weights.map (· ∘ e)) =
        hessianIcpt d X p M ridge weights ∧
    hessianNone d' (X.submatrix e id) (p ∘ e) (M.submatrix e g) ridge (weights.map (· ∘ e)) =
        hessianNone d X p M ridge weights := by
  refine ⟨?_, ?_, ?_, ?_⟩ <;>
  simp only [hessianBoth, hessianShape, hessianIcpt, hessianNone, hd.c, hd.a, hd.v, perm_negQuad]

/-! ## Non-vacuity: the scobit model on the example data with its rows swapped, and with observation
0 copied twice and observation 1 three times -/

example (X : Matrix (Fin 3) (Fin 2) ℝ) (rta : Matrix (Fin 3) (Fin 3) ℝ) (s : Fin 3 → ℝ)
    (a : Fin 2 → ℝ) (β : Fin 2 → ℝ) :
    calcLogLikelihood β (X.submatrix (Equiv.swap 0 2) id) ((fun r => r) ∘ Equiv.swap 0 2)
      (exM.submatrix (Equiv.swap 0 2) (Equiv.refl _)) (rta.submatrix (Equiv.swap 0 2) id)
      (exChoice ∘ Equiv.swap 0 2) (scobitTransform (some 1)) (some a) (some s) (some 2) none =
    calcLogLikelihood β X (fun r => r) exM rta exChoice (scobitTransform (some 1)) (some a) (some s)
      (some 2) none :=
  perm_loglik (Equiv.swap 0 2) (Equiv.refl _) exM β X _ rta exChoice _ _ (scobit_same _ _ _ _ _ _)
    _ none

example (X : Matrix (Fin 3) (Fin 2) ℝ) (β : Fin 2 → ℝ)
    (M' : Matrix (Σ r : Fin 3, Fin (![2, 3] (exObs r))) (Σ o : Fin 2, Fin (![2, 3] o)) ℝ)
    (hM' : Indicates M' fun x => ⟨exObs x.1, x.2⟩) :
    calcLogLikelihood (S := Empty) (I := Empty) β (X.submatrix (fun x => x.1) id)
      ((fun r => r) ∘ fun x => x.1) M' ((1 : Matrix (Fin 3) (Fin 3) ℝ).submatrix (fun x => x.1) id)
      (exChoice ∘ fun x => x.1) mnlTransform none none none none =
    calcLogLikelihood (S := Empty) (I := Empty) β X (fun r => r) exM (1 : Matrix (Fin 3) (Fin 3) ℝ) exChoice mnlTransform none none
      none (some fun r => ((![2, 3] : Fin 2 → ℕ) (exObs r) : ℝ)) :=
  copies_loglik exM_indicates hM' (copies_exist exObs ![2, 3]) β X _ _ exChoice _ _
    (mnl_same _ _ _ _ _) none

end Pylogit
