import Verif.Lemmas.Separation

/-!
# C120: which choice data have multinomial logit estimates
-/

set_option linter.unusedSectionVars false

open Finset Matrix Function

namespace Pylogit

open Spec

noncomputable section

variable {R O K : Type} [Fintype R] [DecidableEq R] [DecidableEq O] [Fintype K] [DecidableEq K]
  {f : R → O} {a : R → ℝ} {X : Matrix R K ℝ}

/-- **C120** (existence). Choice data have a maximum likelihood estimate of the coefficients that are not fixed if and
only if no direction of these coefficients predicts the choices. -/
theorem logit_estimate_exists_iff (ha : ∀ r, 0 ≤ a r) (fixed : List K) (x₀ : K → ℝ) :
    (∃ x, IsLogitEstimate f a X fixed x₀ x) ↔ ¬ ∃ δ, (∀ i ∈ fixed, δ i = 0) ∧ Separates f a X δ := by
  refine ⟨?_, Sep.estimate_exists ha fixed x₀⟩
  rintro ⟨x, hx, hbest⟩ ⟨δ, hδ, hs⟩
  have h1 := Sep.separated_better ha hs x one_pos
  refine absurd (hbest (x + (1 : ℝ) • δ) fun i hi => ?_) (not_le.2 h1)
  rw [Pi.add_apply, Pi.smul_apply, hδ i hi, smul_zero, add_zero, hx i hi]

/-- **C120** (stationary points). Where no utility is clipped, the derivatives of the log-likelihood as the library
computes it, with its clipped utilities, are zero for all coefficients that are not fixed if and only if the
coefficients are a maximum likelihood estimate, of the log-likelihood without clipping. -/
theorem stationary_iff_estimate (ha : ∀ r, 0 ≤ a r) (fixed : List K) {x g : K → ℝ} (hx : ∀ r, |(X *ᵥ x) r| < 700)
    (hg : HasPartials (fun θ => clippedLogLik f a (X *ᵥ θ)) g x) :
    (∀ k, k ∉ fixed → g k = 0) ↔ IsLogitEstimate f a X fixed x x := by
  constructor
  · intro h0
    refine ⟨fun _ _ => rfl, fun y hy => ?_⟩
    have h1 := Sep.logLik_tangent (f := f) ha (X *ᵥ x) (X *ᵥ y)
    have h2 := Sep.partials_along hx hg (y - x)
    rw [Matrix.mulVec_sub] at h2
    have h3 : ∑ k, g k * (y - x) k = 0 := Finset.sum_eq_zero fun k _ => by
      by_cases hk : k ∈ fixed
      · rw [Pi.sub_apply, hy k hk, sub_self, mul_zero]
      · rw [h0 k hk, zero_mul]
    have h4 : ∑ r, a r * Sep.slope f (X *ᵥ x) (fun s => (X *ᵥ y) s - (X *ᵥ x) s) r = 0 := h2.symm.trans h3
    linarith
  · intro h k hk
    have hd := Sep.logLik_deriv (f := f) (a := a) X x k
    rw [(hg k).unique (Sep.clipped_deriv X hx k)]
    refine IsLocalMax.hasDerivAt_eq_zero (f := fun t => logitLogLik f a (X *ᵥ update x k t)) ?_ hd
    refine Filter.Eventually.of_forall fun t => ?_
    beta_reduce
    rw [update_eq_self]
    exact h.2 _ fun i hi => by
      rw [update_of_ne]
      rintro rfl
      exact hk hi

/-- **C120** (uniqueness). Two maximum likelihood estimates, given the same fixed coefficients, differ by a direction in
which the utilities of every observation with a choice move alike - so they give these observations the same
probabilities, and if there is no such direction they are the same. -/
theorem logit_estimate_unique (ha : ∀ r, 0 ≤ a r) {fixed : List K} {x₀ x x' : K → ℝ}
    (h : IsLogitEstimate f a X fixed x₀ x) (h' : IsLogitEstimate f a X fixed x₀ x') :
    (∀ r s t, 0 < a r → f s = f r → f t = f r → (X *ᵥ (x' - x)) s = (X *ᵥ (x' - x)) t) ∧
    (∀ r s, 0 < a r → f s = f r → logitProb f (X *ᵥ x') s = logitProb f (X *ᵥ x) s) ∧
    ((∀ v, (∀ r s t, 0 < a r → f s = f r → f t = f r → (X *ᵥ v) s = (X *ᵥ v) t) → v = 0) → x' = x) := by
  have h0 : ∑ r, a r * Sep.slope f (X *ᵥ x) (fun s => (X *ᵥ x') s - (X *ᵥ x) s) r ≤ 0 := by
    -- moving towards `x'` does not raise the log-likelihood
    have e : (fun s => (X *ᵥ x') s - (X *ᵥ x) s) = X *ᵥ (x' - x) := by rw [Matrix.mulVec_sub]; rfl
    rw [e]
    have hlin : ∀ r, Sep.slope f (X *ᵥ x) (X *ᵥ (x' - x)) r =
        ∑ k, Sep.slope f (X *ᵥ x) (fun s => X s k) r * (x' - x) k := fun r => Sep.slope_mulVec X _ _ r
    simp only [hlin, Finset.mul_sum]
    rw [Finset.sum_comm]
    refine (Finset.sum_eq_zero fun k _ => ?_).le
    by_cases hk : k ∈ fixed
    · rw [Pi.sub_apply, h'.1 k hk, h.1 k hk, sub_self]
      simp
    · have hz : ∑ r, a r * Sep.slope f (X *ᵥ x) (fun s => X s k) r = 0 := by
        refine IsLocalMax.hasDerivAt_eq_zero (f := fun t => logitLogLik f a (X *ᵥ update x k t)) ?_
          (Sep.logLik_deriv (f := f) (a := a) X x k)
        refine Filter.Eventually.of_forall fun t => ?_
        beta_reduce
        rw [update_eq_self]
        refine h.2 _ fun i hi => ?_
        rw [update_of_ne (show i ≠ k from fun e => hk (e ▸ hi)), h.1 i hi]
      simp only [← mul_assoc, ← Finset.sum_mul, hz, zero_mul]
  have key : ∀ r s t, 0 < a r → f s = f r → f t = f r → (X *ᵥ (x' - x)) s = (X *ᵥ (x' - x)) t := by
    intro r s t hr hs ht
    by_contra hne
    rw [Matrix.mulVec_sub] at hne
    have hstrict := Sep.tangent_strict f (X *ᵥ x) (X *ᵥ x') hs ht hne
    have hlt : logitLogLik f a (X *ᵥ x') < logitLogLik f a (X *ᵥ x) +
        ∑ r, a r * Sep.slope f (X *ᵥ x) (fun s => (X *ᵥ x') s - (X *ᵥ x) s) r := by
      rw [logitLogLik, logitLogLik, ← Finset.sum_add_distrib]
      refine Finset.sum_lt_sum (fun q _ => ?_) ⟨r, Finset.mem_univ _, ?_⟩
      · rw [← mul_add]; exact mul_le_mul_of_nonneg_left (Sep.tangent f _ _ q) (ha q)
      · rw [← mul_add]; exact mul_lt_mul_of_pos_left hstrict hr
    linarith [h'.2 x h.1]
  refine ⟨key, fun r s hr hs => ?_, fun hid => sub_eq_zero.1 (hid _ key)⟩
  have hshift : ∀ t, f t = f s → (X *ᵥ x') t = (X *ᵥ x) t + (X *ᵥ (x' - x)) s := by
    intro t ht
    have := key r t s hr (ht.trans hs) hs
    rw [← this, Matrix.mulVec_sub, Pi.sub_apply]; ring
  rw [logitProb, logitProb, hshift s rfl, Real.exp_add]
  have : ∑ t ∈ rowsOf f (f s), Real.exp ((X *ᵥ x') t) =
      (∑ t ∈ rowsOf f (f s), Real.exp ((X *ᵥ x) t)) * Real.exp ((X *ᵥ (x' - x)) s) := by
    rw [Finset.sum_mul]
    exact Finset.sum_congr rfl fun t ht => by rw [hshift t (Sep.mem_rows.1 ht), Real.exp_add]
  rw [this, mul_div_mul_right _ _ (Real.exp_pos _).ne']

/-- **C120** (no estimate). If a direction predicts the choices, then wherever no utility is clipped the derivative of
the log-likelihood in this direction is positive, and a step in this direction leads to a higher log-likelihood
without any utility being clipped: what the library maximises has no maximum among the coefficients it computes with
exactly. -/
theorem separated_never_best (ha : ∀ r, 0 ≤ a r) {δ : K → ℝ} (h : Separates f a X δ) {x : K → ℝ}
    (hx : ∀ r, |(X *ᵥ x) r| < 700) :
    (∀ g, HasPartials (fun θ => clippedLogLik f a (X *ᵥ θ)) g x → 0 < ∑ k, g k * δ k) ∧
    ∃ t : ℝ, 0 < t ∧ (∀ r, |(X *ᵥ (x + t • δ)) r| < 700) ∧
      clippedLogLik f a (X *ᵥ x) < clippedLogLik f a (X *ᵥ (x + t • δ)) := by
  refine ⟨fun g hg => ?_, ?_⟩
  · rw [Sep.partials_along hx hg]
    exact Sep.slopes_pos ha h _
  · have h1 := (Sep.eventually_inside hx δ).filter_mono (nhdsWithin_le_nhds (s := Set.Ioi 0))
    obtain ⟨t, ht, ht0⟩ := (h1.and self_mem_nhdsWithin).exists
    refine ⟨t, ht0, ht, ?_⟩
    rw [Sep.clipped_eq fun r => (hx r).le, Sep.clipped_eq fun r => (ht r).le]
    exact Sep.separated_better ha h x ht0

/-- **C120** (never chosen). If a column is one in the rows `A` and zero elsewhere, no row of `A` is chosen, and some
observation chose another row although it had a row in `A`, then lowering the coefficient of the column predicts the
choices. -/
theorem never_chosen_separates {A : R → Prop} {k : K} (hk : ∀ r, A r → X r k = 1)
    (hk' : ∀ r, ¬ A r → X r k = 0) (hno : ∀ r, A r → a r ≤ 0) {r s : R} (hr : 0 < a r) (hs : A s) (hrs : f s = f r) :
    Separates f a X (-Pi.single k 1) := by
  have e : ∀ r, (X *ᵥ (-Pi.single k 1)) r = -X r k := fun r => by
    rw [Matrix.mulVec_neg, Matrix.mulVec_single_one]; rfl
  have hnot : ∀ r, 0 < a r → ¬ A r := fun r h hA => absurd (hno r hA) (not_le.2 h)
  refine ⟨fun q t hq ht => ?_, r, s, hr, hrs, ?_⟩
  · rw [e, e, hk' q (hnot q hq), neg_zero]
    by_cases hA : A t
    · rw [hk t hA]; norm_num
    · rw [hk' t hA, neg_zero]
  · rw [e, e, hk' r (hnot r hr), hk s hs]; norm_num

/-- **C120** (always chosen). If a column is one in the rows `A` and zero elsewhere, every observation with a row in
`A` chose such a row, and one of them could have chosen another, then raising the coefficient of the column predicts
the choices. -/
theorem always_chosen_separates {A : R → Prop} {k : K} (hk : ∀ r, A r → X r k = 1)
    (hk' : ∀ r, ¬ A r → X r k = 0) (hall : ∀ r s, 0 < a r → f s = f r → A s → A r) {r s : R} (hr : 0 < a r)
    (hA : A r) (hs : ¬ A s) (hrs : f s = f r) : Separates f a X (Pi.single k 1) := by
  have e : ∀ r, (X *ᵥ (Pi.single k 1)) r = X r k := fun r => by rw [Matrix.mulVec_single_one]; rfl
  refine ⟨fun q t hq ht => ?_, r, s, hr, hrs, ?_⟩
  · rw [e, e]
    by_cases hAt : A t
    · rw [hk t hAt, hk q (hall q t hq ht hAt)]
    · rw [hk' t hAt]
      by_cases hAq : A q
      · rw [hk q hAq]; norm_num
      · rw [hk' q hAq]
  · rw [e, e, hk' s hs, hk r hA]; norm_num

end

end Pylogit
