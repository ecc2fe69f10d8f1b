import Mathlib.Tactic
import Verif.Model.BootstrapAbc
import Verif.Spec.Choice
import Verif.Spec.Abc
import Verif.Lemmas.Normal

/-!
# C65, C71, C72: approximate bootstrap confidence (ABC) intervals
-/

set_option linter.unusedSectionVars false

open Finset Matrix

namespace Pylogit

open Spec

variable {R O P : Type} [Fintype O] [DecidableEq O]

private lemma longForm_apply {M : Matrix R O ℝ} {f : R → O} (hM : Indicates M f) (wide : O → ℝ)
    (r : R) : createLongFormWeights M wide r = wide (f r) := by
  unfold createLongFormWeights Matrix.mulVec dotProduct
  rw [Finset.sum_eq_single (f r)]
  · change M r (f r) * wide (f r) = _
    rw [hM r (f r)]; simp
  · intro o _ ho
    change M r o * wide o = 0
    rw [hM r o, if_neg (Ne.symm ho)]; simp
  · simp

/-- Every row gets the weight of its observation. -/
theorem long_form_weights {M : Matrix R O ℝ} {f : R → O} (hM : Indicates M f) (wide : O → ℝ)
    (r : R) : createLongFormWeights M wide r = wide (f r) := longForm_apply hM wide r

lemma fitWide_some {m : AbcModel R O P} {f : R → O} (hM : Indicates m.rowsToObs f)
    (wide : O → ℝ) : m.fitWide (some wide) = m.fit fun r => some (wide (f r) * m.origWeights r) := by
  unfold AbcModel.fitWide
  simp only [longForm_apply hM]

/-- **C65**, plus term.  The fit is called with weights that are the original weights times a
probability weight of the row's observation: `(1 - ε)/n + ε` for the perturbed observation and
`(1 - ε)/n` for all others; these sum to one. -/
theorem abc_plus_weights [Nonempty O] {m : AbcModel R O P} {f : R → O}
    (hM : Indicates m.rowsToObs f) (ε : ℝ) (obs : O) :
    ∃ w : O → ℝ, abcTermPlus m ε obs = (m.fit fun r => some (w (f r) * m.origWeights r)) ∧
      w obs = (1 - ε) / Fintype.card O + ε ∧
      (∀ o, o ≠ obs → w o = (1 - ε) / Fintype.card O) ∧ ∑ o, w o = 1 := by
  classical
  refine ⟨Function.update (fun _ => (1 - ε) / Fintype.card O) obs ((1 - ε) / Fintype.card O + ε),
    ?_, by simp, fun o ho => by simp [ho], ?_⟩
  · unfold abcTermPlus
    simp only []
    rw [fitWide_some hM]
    congr 1
    funext r
    congr 2
    by_cases h : f r = obs
    · simp [h]; ring
    · simp [h]; ring
  · rw [Finset.sum_update_of_mem (mem_univ _)]
    have hn : (Fintype.card O : ℝ) ≠ 0 := by simp
    have hc : ((univ \ {obs} : Finset O).card : ℝ) = Fintype.card O - 1 := by
      rw [Finset.card_sdiff_of_subset (by simp)]
      rw [Nat.cast_sub (by simpa using Nat.succ_le_of_lt (Fintype.card_pos (α := O)))]
      simp
    rw [Finset.sum_const, nsmul_eq_mul, hc]
    field_simp
    ring

/-- **C65**, minus term.  As above with `-ε`. -/
theorem abc_minus_weights [Nonempty O] {m : AbcModel R O P} {f : R → O}
    (hM : Indicates m.rowsToObs f) (ε : ℝ) (obs : O) :
    ∃ w : O → ℝ, abcTermMinus m ε obs = (m.fit fun r => some (w (f r) * m.origWeights r)) ∧
      w obs = (1 + ε) / Fintype.card O - ε ∧
      (∀ o, o ≠ obs → w o = (1 + ε) / Fintype.card O) ∧ ∑ o, w o = 1 := by
  have e : abcTermMinus m ε obs = abcTermPlus m (-ε) obs := by
    unfold abcTermMinus abcTermPlus
    simp only [sub_neg_eq_add]
    rfl
  obtain ⟨w, h1, h2, h3, h4⟩ := abc_plus_weights hM (-ε) obs
  refine ⟨w, by rw [e, h1], by rw [h2]; ring, fun o ho => by rw [h3 o ho]; ring, h4⟩

/-! ## C71: the interval of a linear statistic -/

/-- Half a power. -/
private lemma rpow_half (x : ℝ) : x ^ (0.5 : ℝ) = Real.sqrt x := by
  rw [Real.sqrt_eq_rpow]; norm_num

private lemma sum_dev [Nonempty O] (t : O → P → ℝ) (p : P) : ∑ o, (t o p - obsMean t p) = 0 := by
  have hn : (Fintype.card O : ℝ) ≠ 0 := by simp
  rw [Finset.sum_sub_distrib, Finset.sum_const, card_univ, nsmul_eq_mul, obsMean]
  field_simp
  ring

lemma sum_dev_mul [Nonempty O] (t : O → P → ℝ) (p : P) :
    ∑ o, (t o p - obsMean t p) * t o p = obsMoment t 2 p := by
  have h := sum_dev t p
  have : ∀ o, (t o p - obsMean t p) * t o p =
      (t o p - obsMean t p) ^ 2 + obsMean t p * (t o p - obsMean t p) := fun o => by ring
  simp only [this]
  rw [Finset.sum_add_distrib, ← Finset.mul_sum, h, mul_zero, add_zero]
  rfl

/-- **C71**.  Suppose the estimate is a weighted mean: with weight `w o` on observation `o`, the fit is
`∑ w o * t o p`.  Then the ABC interval has the closed form of Efron: with `μ` the mean, `SE` the
square root of the sum of squared deviations divided by `n`, `a` the sum of cubed deviations divided by
`6` times the sum of squares to the power 3/2, and `zl`, `zu` the normal quantiles, the endpoints are
`μ + SE * w / (1 - a w)²` for `w = a + zl` and `w = a + zu`. -/
theorem abc_interval_of_mean [Nonempty O] {ppf : ℝ → ℝ} (hp : IsNormQuantile ppf)
    {m : AbcModel R O P} {f : R → O} (hM : Indicates m.rowsToObs f) (t : O → P → ℝ)
    (hfit : ∀ (w : O → ℝ) (p : P),
      m.fit (fun r => some (w (f r) * m.origWeights r)) p = ∑ o, w o * t o p)
    {ε c : ℝ} (hε : ε ≠ 0) (h0 : 0 < c) (h1 : c < 100)
    (htol : ∀ o p, t o p = obsMean t p ∨ 1e-12 < |2 * ε * (t o p - obsMean t p)|)
    (hvar : ∀ p, obsMoment t 2 p ≠ 0)
    (zl zu : ℝ) (hzl : normCdf zl = (100 - c) / 200) (hzu : normCdf zu = 1 - (100 - c) / 200)
    (a SE : P → ℝ) (ha : ∀ p, a p = obsMoment t 3 p / (6 * obsMoment t 2 p ^ (1.5 : ℝ)))
    (hSE : ∀ p, SE p = Real.sqrt (obsMoment t 2 p) / Fintype.card O)
    (hl : ∀ p, a p * (a p + zl) ≠ 1) (hu : ∀ p, a p * (a p + zu) ≠ 1) :
    calcAbcInterval ppf normCdf m (obsMean t) (.num c) ε = .ok fun p =>
      (obsMean t p + SE p * ((a p + zl) / (1 - a p * (a p + zl)) ^ 2),
       obsMean t p + SE p * ((a p + zu) / (1 - a p * (a p + zu)) ^ 2)) := by
  classical
  have hn : (Fintype.card O : ℝ) ≠ 0 := by simp
  have hn0 : (0 : ℝ) < Fintype.card O := by
    have := Fintype.card_pos (α := O); exact_mod_cast this
  have hpos : ∀ p, 0 < obsMoment t 2 p := fun p => lt_of_le_of_ne
    (Finset.sum_nonneg fun o _ => by positivity) (Ne.symm (hvar p))
  have hSEpos : ∀ p, 0 < SE p := fun p => by
    rw [hSE]; exact div_pos (Real.sqrt_pos.2 (hpos p)) hn0
  -- the finite difference terms
  have hplus : ∀ o p, abcTermPlus m ε o p = obsMean t p + ε * (t o p - obsMean t p) := by
    intro o p
    unfold abcTermPlus
    simp only []
    rw [fitWide_some hM, hfit]
    have : ∀ x, Function.update (fun _ => (1 - ε) * (1 / (Fintype.card O : ℝ))) o
        ((1 - ε) * (1 / (Fintype.card O : ℝ)) + ε) x * t x p =
        (1 - ε) * (1 / (Fintype.card O : ℝ)) * t x p + if x = o then ε * t x p else 0 := by
      intro x
      by_cases h : x = o
      · subst h; simp; ring
      · simp [h]
    rw [Finset.sum_congr rfl fun x _ => this x, Finset.sum_add_distrib, ← Finset.mul_sum,
      Finset.sum_ite_eq' univ o, if_pos (mem_univ _), obsMean]
    field_simp
    ring
  have hminus : ∀ o p, abcTermMinus m ε o p = obsMean t p - ε * (t o p - obsMean t p) := by
    intro o p
    unfold abcTermMinus
    simp only []
    rw [fitWide_some hM, hfit]
    have : ∀ x, Function.update (fun _ => (1 + ε) * (1 / (Fintype.card O : ℝ))) o
        ((1 + ε) * (1 / (Fintype.card O : ℝ)) - ε) x * t x p =
        (1 + ε) * (1 / (Fintype.card O : ℝ)) * t x p + if x = o then -ε * t x p else 0 := by
      intro x
      by_cases h : x = o
      · subst h; simp; ring
      · simp [h]
    rw [Finset.sum_congr rfl fun x _ => this x, Finset.sum_add_distrib, ← Finset.mul_sum,
      Finset.sum_ite_eq' univ o, if_pos (mem_univ _), obsMean]
    field_simp
    ring
  have hinfl : empiricalInfluence (abcTermPlus m ε) (abcTermMinus m ε) ε =
      fun o p => t o p - obsMean t p := by
    funext o p
    unfold empiricalInfluence
    rw [hplus, hminus]
    have e : obsMean t p + ε * (t o p - obsMean t p) - (obsMean t p - ε * (t o p - obsMean t p)) =
      2 * ε * (t o p - obsMean t p) := by ring
    rw [e]
    split_ifs with h
    · rcases htol o p with h' | h'
      · rw [h']; ring
      · linarith
    · field_simp
  have hsecond : secondOrderInfluence (obsMean t) (abcTermPlus m ε) (abcTermMinus m ε) ε =
      fun _ _ => 0 := by
    funext o p
    unfold secondOrderInfluence
    rw [hplus, hminus, if_pos]
    rw [show obsMean t p + ε * (t o p - obsMean t p) + (obsMean t p - ε * (t o p - obsMean t p)) -
      2 * obsMean t p = 0 by ring]
    norm_num
  have hse : stdErrorAbc (fun o p => t o p - obsMean t p) = SE := by
    funext p
    rw [hSE]
    unfold stdErrorAbc
    rw [rpow_half]; rfl
  have hacc : accelerationAbc (fun o p => t o p - obsMean t p) = fun p => some (a p) := by
    funext p
    have hd : 6 * (obsMoment t 2 p) ^ (1.5 : ℝ) ≠ 0 := by
      have := Real.rpow_pos_of_pos (hpos p) (1.5 : ℝ)
      positivity
    unfold accelerationAbc
    change (if 6 * (obsMoment t 2 p) ^ (1.5 : ℝ) = 0 then none
      else some (obsMoment t 3 p / (6 * (obsMoment t 2 p) ^ (1.5 : ℝ)))) = some (a p)
    rw [if_neg hd, ha]
  have hbias : biasAbc (fun (_ : O) (_ : P) => (0 : ℝ)) = fun _ => 0 := by
    funext p; simp [biasAbc]
  -- a direction proportional to the influence
  have hdir : ∀ (k : ℝ) (p : P), m.fitWide (some fun o => 1 / (Fintype.card O : ℝ) +
      k * (t o p - obsMean t p)) p = obsMean t p + k * obsMoment t 2 p := by
    intro k p
    rw [fitWide_some hM,
      hfit fun o => 1 / (Fintype.card O : ℝ) + k * (t o p - obsMean t p)]
    have : ∀ o, (1 / (Fintype.card O : ℝ) + k * (t o p - obsMean t p)) * t o p =
        1 / (Fintype.card O : ℝ) * t o p + k * ((t o p - obsMean t p) * t o p) := fun o => by ring
    rw [Finset.sum_congr rfl fun o _ => this o, Finset.sum_add_distrib, ← Finset.mul_sum,
      ← Finset.mul_sum, sum_dev_mul, obsMean]
    ring
  have hquadW : ∀ (e : ℝ) (p : P), m.fitWide (quadraticWeights
      (fun o p => t o p - obsMean t p) SE e p) p =
      obsMean t p + e / ((Fintype.card O : ℝ) ^ 2 * SE p) * obsMoment t 2 p := by
    intro e p
    have hne : (Fintype.card O : ℝ) ^ 2 * SE p ≠ 0 := by
      have := hSEpos p
      positivity
    unfold quadraticWeights
    simp only []
    rw [if_neg hne, ← hdir]
    congr 3
    funext o
    ring
  have hquad : efronQuadraticCoef m (obsMean t) (fun o p => t o p - obsMean t p) SE ε =
      .ok fun _ => some 0 := by
    unfold efronQuadraticCoef
    simp only [hquadW]
    rw [if_pos]
    intro p
    rw [not_not, show obsMean t p + ε / ((Fintype.card O : ℝ) ^ 2 * SE p) * obsMoment t 2 p +
      (obsMean t p + -ε / ((Fintype.card O : ℝ) ^ 2 * SE p) * obsMoment t 2 p) - 2 * obsMean t p
      = 0 by ring]
    norm_num
  have hbc : ∀ p, biasCorrectionAbc ppf normCdf (some (a p))
      (totalCurvature 0 (SE p) (some 0)) = some (a p) := by
    intro p
    have hs := (hSEpos p).ne'
    simp only [totalCurvature, biasCorrectionAbc, Option.bind_some, if_neg hs, zero_div, sub_zero,
      mul_zero, normCdf_zero]
    rw [show 2 * normCdf (a p) * (1 / 2) = normCdf (a p) by ring,
      if_pos ⟨normCdf_pos _, normCdf_lt_one _⟩, quantile_cdf hp]
  have hend : ∀ (pct z : ℝ) (p : P), normCdf z = pct * 0.01 → a p * (a p + z) ≠ 1 →
      m.fitWide (endpointWeights ppf pct (some (a p)) (some (a p)) (SE p)
        fun o => t o p - obsMean t p) p =
      obsMean t p + SE p * ((a p + z) / (1 - a p * (a p + z)) ^ 2) := by
    intro pct z p hz hne
    have hs := hSEpos p
    have hz' : ppf (pct * 0.01) = z := by rw [← hz, quantile_cdf hp]
    have h1 : (1 - a p * (a p + z)) ≠ 0 := fun h => hne (by linarith)
    simp only [endpointWeights, Option.bind_some, hz']
    rw [if_neg (by
      rintro (h | h)
      · exact h1 (pow_eq_zero_iff (two_ne_zero) |>.1 h)
      · exact absurd h (by positivity))]
    rw [hdir]
    have hm : obsMoment t 2 p = (SE p * Fintype.card O) ^ 2 := by
      rw [hSE, div_mul_cancel₀ _ hn, Real.sq_sqrt (hpos p).le]
    rw [hm]
    have := hs.ne'
    field_simp
  have hc : checkConfPercentage (.num c) = .ok c := by simp [checkConfPercentage, h0, h1]
  simp only [calcAbcInterval, hc, bind, Except.bind, hinfl, hsecond, hse, hacc, hbias, hquad, hbc,
    efronEndpoint, alphaFromConf]
  congr 1
  funext p
  rw [hend _ zl p (by rw [hzl]; ring) (hl p), hend _ zu p (by rw [hzu]; ring) (hu p)]

/-- A case meeting the hypotheses: three observations of one row each with values 0, 0 and 3. -/
example : ∃ (m : AbcModel (Fin 3) (Fin 3) Unit) (t : Fin 3 → Unit → ℝ) (zl zu : ℝ),
    Indicates m.rowsToObs id ∧
    (∀ (w : Fin 3 → ℝ) (p : Unit),
      m.fit (fun r => some (w (id r) * m.origWeights r)) p = ∑ o, w o * t o p) ∧
    (∀ o p, t o p = obsMean t p ∨ 1e-12 < |2 * (1e-3 : ℝ) * (t o p - obsMean t p)|) ∧
    (∀ p, obsMoment t 2 p ≠ 0) ∧ normCdf zl = (100 - 90) / 200 ∧
    normCdf zu = 1 - (100 - 90) / 200 := by
  obtain ⟨ppf, hp⟩ := exists_normQuantile
  have hmean : ∀ p, obsMean (fun (o : Fin 3) (_ : Unit) => (![0, 0, 3] : Fin 3 → ℝ) o) p = 1 := by
    intro p
    simp [obsMean, Fin.sum_univ_succ]
  refine ⟨⟨1, fun w _ => ∑ r, (w r).getD 0 * (![0, 0, 3] : Fin 3 → ℝ) r, fun _ => 1⟩,
    fun o _ => (![0, 0, 3] : Fin 3 → ℝ) o, ppf ((100 - 90) / 200), ppf (1 - (100 - 90) / 200),
    ?_, ?_, ?_, ?_, hp _ (by norm_num) (by norm_num), hp _ (by norm_num) (by norm_num)⟩
  · intro r o
    simp [Matrix.one_apply]
  · intro w p
    simp
  · intro o p
    right
    rw [hmean]
    fin_cases o <;> norm_num [abs_of_pos, abs_of_neg]
  · intro p
    simp only [obsMoment, hmean, Fin.sum_univ_succ]
    simp
    norm_num

/-! ## C72: the interval of an actual model -/

/-- **C72** (the property fails of the code).  When the fit does not use its weights, the ABC interval
of every parameter has width zero at every confidence level: both endpoints are the unweighted
estimate. -/
theorem abc_interval_degenerate (ppf cdf : ℝ → ℝ) (m : AbcModel R O P) (x : P → ℝ)
    (hfit : ∀ w, m.fit w = x) {c : ℝ} (h0 : 0 < c) (h1 : c < 100) (ε : ℝ) :
    calcAbcInterval ppf cdf m x (.num c) ε = .ok fun p => (x p, x p) := by
  have hw : ∀ w, m.fitWide w = x := by
    intro w
    cases w <;> simp [AbcModel.fitWide, hfit]
  have hc : checkConfPercentage (.num c) = .ok c := by simp [checkConfPercentage, h0, h1]
  have hq : ∀ i s, efronQuadraticCoef m x i s ε = .ok fun _ => some 0 := by
    intro i s
    unfold efronQuadraticCoef
    simp only [hw]
    rw [if_pos]
    intro p
    rw [not_not, hw, hw, show x p + x p - 2 * x p = 0 by ring]
    norm_num
  simp only [calcAbcInterval, hc, bind, Except.bind, hq, efronEndpoint, hw]

/-- **C72** (fails, all models).  The ABC interval of a fitted pylogit model around the estimate of the
same fit is `[x, x]`. -/
theorem abc_interval_degenerate_models [Fintype P] [DecidableEq P] (ppf cdf : ℝ → ℝ)
    (minimize : Minimizer P) (mk : Option (R → ℝ) → Estimator P) (init : P → ℝ)
    (rowsToObs : Matrix R O ℝ) (origWeights : R → ℝ) {c : ℝ} (h0 : 0 < c) (h1 : c < 100) (ε : ℝ) :
    calcAbcInterval ppf cdf (abcModelOf minimize mk init rowsToObs origWeights)
      (fitMle minimize mk none init).params (.num c) ε =
    .ok fun p => ((fitMle minimize mk none init).params p, (fitMle minimize mk none init).params p) :=
  abc_interval_degenerate ppf cdf _ _ (fun _ => rfl) h0 h1 ε

/-- **C72**.  When an interval is computed for parameters other than the fit's own, it is still the
single point of the fit, and does not contain the parameters unless they are the fit's. -/
theorem abc_interval_other_estimate (ppf cdf : ℝ → ℝ) (m : AbcModel R O P) (x mle : P → ℝ)
    (hfit : ∀ w, m.fit w = x) {conf : PyVal ℝ} (ε : ℝ) {ci : P → ℝ × ℝ}
    (h : calcAbcInterval ppf cdf m mle conf ε = .ok ci) (p : P) : ci p = (x p, x p) := by
  have hw : ∀ w, m.fitWide w = x := by
    intro w
    cases w <;> simp [AbcModel.fitWide, hfit]
  cases hc : checkConfPercentage conf with
  | error e => simp [calcAbcInterval, hc, bind, Except.bind] at h
  | ok c =>
    simp only [calcAbcInterval, hc, bind, Except.bind] at h
    split at h
    · simp at h
    · simp only [Except.ok.injEq, efronEndpoint, hw] at h
      rw [← h]

/-- A quadratic coefficient computed for some but not for all parameters makes the interval raise
`ValueError`: one parameter whose fit ignores the perturbation (a constrained one) next to one that
does not is enough. -/
theorem abc_quadratic_shape_error (m : AbcModel R O P) (mle : P → ℝ) (influence : O → P → ℝ)
    (stdError : P → ℝ) (ε : ℝ) (p q : P)
    (hp : ∀ w, m.fit w p = mle p)
    (hq : 1e-10 < |m.fitWide (quadraticWeights influence stdError ε q) q +
      m.fitWide (quadraticWeights influence stdError (-ε) q) q - 2 * mle q|) :
    efronQuadraticCoef m mle influence stdError ε = .error .valueError := by
  have hw : ∀ w, m.fitWide w p = mle p := by
    intro w
    cases w <;> simp [AbcModel.fitWide, hp]
  unfold efronQuadraticCoef
  simp only []
  rw [if_neg, if_neg]
  · intro h
    apply h p
    rw [hw, hw, show mle p + mle p - 2 * mle p = 0 by ring]
    norm_num
  · intro h
    have := h q
    rw [not_not] at this
    linarith

end Pylogit
