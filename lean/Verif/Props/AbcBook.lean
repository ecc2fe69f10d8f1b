import Verif.Props.BootstrapAbc

/-!
# C122: the two ways to compute ABC endpoints and quadratic coefficients
-/

open Finset Matrix

namespace Pylogit

open Spec

variable {R O P : Type} [Fintype R] [Fintype O] [DecidableEq O]

/-! ## Endpoints -/

omit [Fintype R] [DecidableEq O] in
/-- **C122** (endpoints). `calc_endpoint_from_percentile_abc` gives the endpoint that `calc_abc_interval` uses, for
every model, percentile and level, when it is given `n^2` times the standard errors. -/
theorem abc_endpoint_scaled (m : AbcModel R O P) (ppf : ℝ → ℝ) (percentile : ℝ)
    (biasCorrection accel : P → Option ℝ) (stdError : P → ℝ) (influence : O → P → ℝ) :
    calcEndpoint m ppf percentile biasCorrection accel (fun p => stdError p * (Fintype.card O : ℝ) ^ 2) influence =
      efronEndpoint m ppf percentile biasCorrection accel stdError influence := rfl

omit [Fintype R] in
/-- **C122** (a negation). Given the standard errors, as its documentation says, it is wrong by the factor `n^2`: when
the estimate is a weighted mean of `n` values, the endpoint of `calc_abc_interval` is the mean plus `SE * λ`, and that of
`calc_endpoint_from_percentile_abc` is the mean plus `n^2 * SE * λ`, where `λ = z / (1 - a z)^2`. So the two agree only
if there is one observation or `z` is zero. -/
theorem abc_endpoints_differ [Nonempty O] {ppf : ℝ → ℝ} {m : AbcModel R O P} {f : R → O}
    (hM : Indicates m.rowsToObs f) (t : O → P → ℝ)
    (hfit : ∀ (w : O → ℝ) (p : P), m.fit (fun r => some (w (f r) * m.origWeights r)) p = ∑ o, w o * t o p)
    {percentile : ℝ} {b a SE : P → ℝ} (hSE : ∀ p, SE p = Real.sqrt (obsMoment t 2 p) / Fintype.card O) {p : P}
    (hvar : obsMoment t 2 p ≠ 0) {z : ℝ} (hz : z = b p + ppf (percentile * 0.01)) (haz : a p * z ≠ 1) :
    efronEndpoint m ppf percentile (fun p => some (b p)) (fun p => some (a p)) SE (fun o p => t o p - obsMean t p) p =
      obsMean t p + SE p * (z / (1 - a p * z) ^ 2) ∧
    calcEndpoint m ppf percentile (fun p => some (b p)) (fun p => some (a p)) SE (fun o p => t o p - obsMean t p) p =
      obsMean t p + (Fintype.card O : ℝ) ^ 2 * SE p * (z / (1 - a p * z) ^ 2) ∧
    (calcEndpoint m ppf percentile (fun p => some (b p)) (fun p => some (a p)) SE (fun o p => t o p - obsMean t p) p =
      efronEndpoint m ppf percentile (fun p => some (b p)) (fun p => some (a p)) SE (fun o p => t o p - obsMean t p) p ↔
        Fintype.card O = 1 ∨ z = 0) := by
  have hn : (Fintype.card O : ℝ) ≠ 0 := by simp
  have hn0 : (0 : ℝ) < Fintype.card O := by
    have := Fintype.card_pos (α := O); exact_mod_cast this
  have hpos : 0 < obsMoment t 2 p := lt_of_le_of_ne (Finset.sum_nonneg fun o _ => by positivity) (Ne.symm hvar)
  have hs : 0 < SE p := by rw [hSE]; exact div_pos (Real.sqrt_pos.2 hpos) hn0
  have hm : obsMoment t 2 p = (SE p * Fintype.card O) ^ 2 := by
    rw [hSE, div_mul_cancel₀ _ hn, Real.sq_sqrt hpos.le]
  have h1 : 1 - a p * z ≠ 0 := sub_ne_zero.2 haz.symm
  have hdir : ∀ k : ℝ, ∑ o, (1 / (Fintype.card O : ℝ) + k * (t o p - obsMean t p)) * t o p =
      obsMean t p + k * obsMoment t 2 p := by
    intro k
    have e : ∀ o, (1 / (Fintype.card O : ℝ) + k * (t o p - obsMean t p)) * t o p =
        t o p / (Fintype.card O : ℝ) + k * ((t o p - obsMean t p) * t o p) := fun o => by ring
    rw [Finset.sum_congr rfl fun o _ => e o, Finset.sum_add_distrib, ← Finset.mul_sum, sum_dev_mul, ← Finset.sum_div]
    rfl
  have A : efronEndpoint m ppf percentile (fun p => some (b p)) (fun p => some (a p)) SE
      (fun o p => t o p - obsMean t p) p = obsMean t p + SE p * (z / (1 - a p * z) ^ 2) := by
    unfold efronEndpoint endpointWeights
    simp only [Option.bind_some]
    rw [← hz, if_neg (by rintro (h | h); exacts [h1 (pow_eq_zero_iff two_ne_zero |>.1 h), absurd h (by positivity)]),
      fitWide_some hM]
    refine (hfit (fun o => 1 / (Fintype.card O : ℝ) +
      z / (1 - a p * z) ^ 2 / (SE p * (Fintype.card O : ℝ) ^ 2) * (t o p - obsMean t p)) p).trans ?_
    rw [hdir, hm]
    have := hs.ne'
    field_simp
  have B : calcEndpoint m ppf percentile (fun p => some (b p)) (fun p => some (a p)) SE
      (fun o p => t o p - obsMean t p) p =
      obsMean t p + (Fintype.card O : ℝ) ^ 2 * SE p * (z / (1 - a p * z) ^ 2) := by
    unfold calcEndpoint bookEndpointWeights
    simp only [Option.bind_some]
    rw [← hz, if_neg (by rintro (h | h); exacts [h1 (pow_eq_zero_iff two_ne_zero |>.1 h), absurd h hs.ne']),
      fitWide_some hM]
    refine (hfit (fun o => 1 / (Fintype.card O : ℝ) +
      z / (1 - a p * z) ^ 2 / SE p * (t o p - obsMean t p)) p).trans ?_
    rw [hdir, hm]
    have := hs.ne'
    field_simp
  refine ⟨A, B, ?_⟩
  rw [A, B, add_right_inj, mul_assoc]
  have hk : SE p * (z / (1 - a p * z) ^ 2) = 0 ↔ z = 0 := by
    simp [hs.ne', h1]
  constructor
  · intro h
    by_cases hz0 : z = 0
    · exact .inr hz0
    · refine .inl ?_
      have h2 := mul_right_cancel₀ (mt hk.1 hz0) (h.trans (one_mul _).symm)
      have h3 : (Fintype.card O) ^ 2 = 1 := by exact_mod_cast h2
      nlinarith [Fintype.card_pos (α := O)]
  · rintro (h | h)
    · rw [h]; simp
    · rw [h]; simp

/-! ## Quadratic coefficients -/

omit [Fintype R] in
/-- **C122** (quadratic coefficients). When the fit depends on the weights only through their proportions, as maximum
likelihood estimates without a penalty do, `calc_quadratic_coef_abc` with step `ε` computes the same fits as
`efron_quadratic_coef_abc` with step `ε / (1 - ε)`; where the latter gives the coefficient `q`, the former gives `2 SE q /
(1 - ε)^2`, and it gives a coefficient also where the latter raises because only some parameters differ. -/
theorem abc_quadratic_scaled [Nonempty O] {m : AbcModel R O P} {f : R → O} (hM : Indicates m.rowsToObs f)
    (hfit : ∀ (w : O → ℝ) (k : ℝ), 0 < k → m.fit (fun r => some (k * w (f r) * m.origWeights r)) =
      m.fit fun r => some (w (f r) * m.origWeights r))
    (mle : P → ℝ) (influence : O → P → ℝ) (stdError : P → ℝ) {ε : ℝ} (hε : 0 < ε) (hε1 : ε < 1)
    (hs : ∀ p, stdError p ≠ 0) :
    (∀ q, efronQuadraticCoef m mle influence stdError (ε / (1 - ε)) = .ok q → ∀ p,
      calcQuadraticCoef m mle influence stdError ε p = (q p).map fun v => 2 * stdError p / (1 - ε) ^ 2 * v) ∧
    ∀ p, ∃ v, calcQuadraticCoef m mle influence stdError ε p = some v := by
  have hn : (Fintype.card O : ℝ) ≠ 0 := by simp
  have h1 : 0 < 1 - ε := by linarith
  have hd : ∀ p, (Fintype.card O : ℝ) ^ 2 * stdError p ≠ 0 := fun p => mul_ne_zero (pow_ne_zero 2 hn) (hs p)
  have same : ∀ sign p, m.fitWide (bookQuadraticWeights influence stdError ε sign p) =
      m.fitWide (quadraticWeights influence stdError (sign * (ε / (1 - ε))) p) := by
    intro sign p
    unfold bookQuadraticWeights quadraticWeights
    simp only [if_neg (hd p)]
    funext q
    rw [fitWide_some hM, fitWide_some hM]
    refine Eq.trans ?_ (congrFun (hfit (fun o => 1 / (Fintype.card O : ℝ) +
      sign * (ε / (1 - ε)) * (influence o p / ((Fintype.card O : ℝ) ^ 2 * stdError p))) (1 - ε) h1) q)
    congr 1
    funext r
    congr 2
    have := h1.ne'
    field_simp
  have hε2 : ε ^ 2 ≠ 0 := pow_ne_zero 2 hε.ne'
  refine ⟨fun q hq p => ?_, fun p => ?_⟩
  · unfold efronQuadraticCoef at hq
    unfold calcQuadraticCoef
    simp only at hq ⊢
    rw [same, same, one_mul, neg_one_mul]
    split_ifs at hq with c1 c2
    · simp only [Except.ok.injEq] at hq
      rw [← hq, if_pos (not_not.1 (c1 p))]
      simp
    · simp only [Except.ok.injEq] at hq
      have hden : 2 * stdError p * (ε / (1 - ε)) ^ 2 ≠ 0 :=
        mul_ne_zero (mul_ne_zero two_ne_zero (hs p)) (pow_ne_zero 2 (div_ne_zero hε.ne' h1.ne'))
      rw [← hq, if_neg (c2 p), if_neg hε2]
      beta_reduce
      rw [if_neg hden, Option.map_some]
      congr 1
      have := hs p
      have := h1.ne'
      field_simp
  · unfold calcQuadraticCoef
    simp only
    split_ifs
    · exact ⟨_, rfl⟩
    · exact ⟨_, rfl⟩

omit [Fintype R] in
/-- **C122** (a negation). The weights that `calc_quadratic_coef_abc` fits sum to `1 - ε` rather than to one. So an
estimate that is linear in the weights, whose quadratic coefficient is zero, gets the coefficient `-2 μ / ε`, which grows
without bound as the step shrinks. `efron_quadratic_coef_abc` gives zero. -/
theorem abc_quadratic_linear [Nonempty O] {m : AbcModel R O P} {f : R → O} (hM : Indicates m.rowsToObs f)
    (t : O → P → ℝ)
    (hfit : ∀ (w : O → ℝ) (p : P), m.fit (fun r => some (w (f r) * m.origWeights r)) p = ∑ o, w o * t o p)
    {SE : P → ℝ} (hs : ∀ p, SE p ≠ 0) {ε : ℝ} (hε : ε ≠ 0) :
    efronQuadraticCoef m (obsMean t) (fun o p => t o p - obsMean t p) SE ε = .ok (fun _ => some 0) ∧
    ∀ p, 1e-10 < |2 * ε * obsMean t p| →
      calcQuadraticCoef m (obsMean t) (fun o p => t o p - obsMean t p) SE ε p = some (-2 * obsMean t p / ε) := by
  have hn : (Fintype.card O : ℝ) ≠ 0 := by simp
  have hd : ∀ p, (Fintype.card O : ℝ) ^ 2 * SE p ≠ 0 := fun p => mul_ne_zero (pow_ne_zero 2 hn) (hs p)
  have hdir : ∀ (c k : ℝ) (p : P), m.fitWide (some fun o => c * (1 / (Fintype.card O : ℝ)) +
      k * ((t o p - obsMean t p) / ((Fintype.card O : ℝ) ^ 2 * SE p))) p =
      c * obsMean t p + k * (obsMoment t 2 p / ((Fintype.card O : ℝ) ^ 2 * SE p)) := by
    intro c k p
    rw [fitWide_some hM, hfit fun o => c * (1 / (Fintype.card O : ℝ)) +
      k * ((t o p - obsMean t p) / ((Fintype.card O : ℝ) ^ 2 * SE p))]
    have e : ∀ o, (c * (1 / (Fintype.card O : ℝ)) +
        k * ((t o p - obsMean t p) / ((Fintype.card O : ℝ) ^ 2 * SE p))) * t o p =
        c * (t o p / (Fintype.card O : ℝ)) +
          k / ((Fintype.card O : ℝ) ^ 2 * SE p) * ((t o p - obsMean t p) * t o p) := fun o => by ring
    rw [Finset.sum_congr rfl fun o _ => e o, Finset.sum_add_distrib, ← Finset.mul_sum, ← Finset.mul_sum, sum_dev_mul,
      ← Finset.sum_div, obsMean]
    ring
  have hquad : ∀ (e : ℝ) (p : P), m.fitWide (quadraticWeights (fun o p => t o p - obsMean t p) SE e p) p =
      obsMean t p + e * (obsMoment t 2 p / ((Fintype.card O : ℝ) ^ 2 * SE p)) := by
    intro e p
    have h := hdir 1 e p
    simp only [one_mul] at h
    unfold quadraticWeights
    simp only [if_neg (hd p)]
    exact h
  have hbook : ∀ (s : ℝ) (p : P), m.fitWide (bookQuadraticWeights (fun o p => t o p - obsMean t p) SE ε s p) p =
      (1 - ε) * obsMean t p + s * ε * (obsMoment t 2 p / ((Fintype.card O : ℝ) ^ 2 * SE p)) := by
    intro s p
    unfold bookQuadraticWeights
    simp only [if_neg (hd p)]
    exact hdir _ _ p
  constructor
  · unfold efronQuadraticCoef
    simp only [hquad]
    rw [if_pos]
    intro p
    rw [not_not, hquad, hquad, show ∀ x y : ℝ, x + ε * y + (x + -ε * y) - 2 * x = 0 from fun x y => by ring]
    norm_num
  · intro p hp
    unfold calcQuadraticCoef
    simp only [hbook]
    rw [if_neg, if_neg (pow_ne_zero 2 hε)]
    · congr 1
      field_simp
      ring
    · rw [not_le, show ∀ x y : ℝ, (1 - ε) * x + 1 * ε * y + ((1 - ε) * x + -1 * ε * y) - 2 * x = -(2 * ε * x) from
        fun x y => by ring, abs_neg]
      exact hp

/-! ## Cases meeting the hypotheses -/

/-- Three observations of one row each with values 0, 0 and 3. -/
def exMean : AbcModel (Fin 3) (Fin 3) Unit :=
  ⟨1, fun w _ => ∑ r, (w r).getD 0 * (![0, 0, 3] : Fin 3 → ℝ) r, fun _ => 1⟩

/-- The endpoint for which `z` is 1 is `1 + √6/3` and `calc_endpoint_from_percentile_abc` returns `1 + 3√6`; the
quadratic coefficient with step 1/1000 is -2000 rather than 0. -/
example : ∃ (t : Fin 3 → Unit → ℝ) (SE : Unit → ℝ), SE () = Real.sqrt 6 / 3 ∧
    efronEndpoint exMean (fun _ => 1) 84 (fun _ => some 0) (fun _ => some 0) SE (fun o p => t o p - obsMean t p) () =
      1 + Real.sqrt 6 / 3 ∧
    calcEndpoint exMean (fun _ => 1) 84 (fun _ => some 0) (fun _ => some 0) SE (fun o p => t o p - obsMean t p) () =
      1 + 3 * Real.sqrt 6 ∧
    efronQuadraticCoef exMean (obsMean t) (fun o p => t o p - obsMean t p) SE (1 / 1000) = .ok (fun _ => some 0) ∧
    calcQuadraticCoef exMean (obsMean t) (fun o p => t o p - obsMean t p) SE (1 / 1000) () = some (-2000) := by
  have hM : Indicates exMean.rowsToObs (id : Fin 3 → Fin 3) := by
    intro r o; simp [exMean, Matrix.one_apply]
  have hmean : ∀ p, obsMean (fun (o : Fin 3) (_ : Unit) => (![0, 0, 3] : Fin 3 → ℝ) o) p = 1 := by
    intro p; simp [obsMean, Fin.sum_univ_succ]
  have hmom : ∀ p, obsMoment (fun (o : Fin 3) (_ : Unit) => (![0, 0, 3] : Fin 3 → ℝ) o) 2 p = 6 := by
    intro p
    simp only [obsMoment, hmean, Fin.sum_univ_succ]
    simp
    norm_num
  have hfit : ∀ (w : Fin 3 → ℝ) (p : Unit), exMean.fit (fun r => some (w (id r) * exMean.origWeights r)) p =
      ∑ o, w o * (fun (o : Fin 3) (_ : Unit) => (![0, 0, 3] : Fin 3 → ℝ) o) o p := by
    intro w p; simp [exMean]
  have h6 : (0 : ℝ) < Real.sqrt 6 := Real.sqrt_pos.2 (by norm_num)
  obtain ⟨A, B, -⟩ := abc_endpoints_differ (ppf := fun _ => 1) hM _ hfit (percentile := 84) (b := fun _ => 0)
    (a := fun _ => 0) (SE := fun _ => Real.sqrt 6 / 3) (fun p => by rw [hmom]; simp) (p := ()) (by rw [hmom]; norm_num)
    (z := 1) (by norm_num) (by norm_num)
  obtain ⟨C, D⟩ := abc_quadratic_linear hM _ hfit (SE := fun _ => Real.sqrt 6 / 3) (fun p => by positivity)
    (ε := 1 / 1000) (by norm_num)
  refine ⟨_, _, rfl, A.trans ?_, B.trans ?_, C, (D () ?_).trans ?_⟩
  · rw [hmean]; norm_num
  · rw [hmean]; norm_num; ring
  · rw [hmean]; norm_num
  · rw [hmean]; norm_num

/-- Two observations of one row each with values 0 and 2. The first parameter is the square of the weighted mean, and
the second is constrained. -/
noncomputable def exSquare : AbcModel (Fin 2) (Fin 2) Bool :=
  ⟨1, fun w p => if p then ((∑ r, (w r).getD 0 * (![0, 2] : Fin 2 → ℝ) r) / ∑ r, (w r).getD 0) ^ 2 else 5, fun _ => 1⟩

/-- The fit does not change when the weights are scaled, `efron_quadratic_coef_abc` raises because of the constrained
parameter, and `calc_quadratic_coef_abc` gives coefficients to both parameters. -/
example : (∀ (w : Fin 2 → ℝ) (k : ℝ), 0 < k → exSquare.fit (fun r => some (k * w (id r) * exSquare.origWeights r)) =
      exSquare.fit fun r => some (w (id r) * exSquare.origWeights r)) ∧
    efronQuadraticCoef exSquare (fun p => if p then 1 else 5) (fun o _ => (![-1, 1] : Fin 2 → ℝ) o) (fun _ => 1 / 4)
      (1 / 10 / (1 - 1 / 10)) = .error .valueError ∧
    ∀ p, ∃ v, calcQuadraticCoef exSquare (fun p => if p then 1 else 5) (fun o _ => (![-1, 1] : Fin 2 → ℝ) o)
      (fun _ => 1 / 4) (1 / 10) p = some v := by
  have hM : Indicates exSquare.rowsToObs (id : Fin 2 → Fin 2) := by
    intro r o; simp [exSquare, Matrix.one_apply]
  have hfit : ∀ (w : Fin 2 → ℝ) (k : ℝ), 0 < k →
      exSquare.fit (fun r => some (k * w (id r) * exSquare.origWeights r)) =
      exSquare.fit fun r => some (w (id r) * exSquare.origWeights r) := by
    intro w k hk
    funext p
    cases p
    · simp [exSquare]
    · simp only [exSquare, Fin.sum_univ_two, id, if_true, Option.getD_some, mul_one]
      simp only [Matrix.cons_val_zero, Matrix.cons_val_one]
      rw [show k * w 0 * 0 + k * w 1 * 2 = k * (w 0 * 0 + w 1 * 2) by ring,
        show k * w 0 + k * w 1 = k * (w 0 + w 1) by ring, mul_div_mul_left _ _ hk.ne']
  refine ⟨hfit, abc_quadratic_shape_error _ _ _ _ _ false true ?_ ?_,
    (abc_quadratic_scaled hM hfit _ _ _ (by norm_num) (by norm_num) fun _ => by norm_num).2⟩
  · intro w; simp [exSquare]
  · unfold quadraticWeights
    norm_num [fitWide_some hM]
    norm_num [exSquare, Fin.sum_univ_two, abs_of_pos]

/-- Without the constrained parameter both functions give a coefficient. -/
noncomputable def exSquareOnly : AbcModel (Fin 2) (Fin 2) Unit :=
  ⟨1, fun w _ => exSquare.fit w true, fun _ => 1⟩

example : ∃ q, efronQuadraticCoef exSquareOnly (fun _ => 1) (fun o _ => (![-1, 1] : Fin 2 → ℝ) o) (fun _ => 1 / 4)
      (1 / 10 / (1 - 1 / 10)) = .ok q ∧ ∃ v, q () = some v ∧ v ≠ 0 := by
  have hM : Indicates exSquareOnly.rowsToObs (id : Fin 2 → Fin 2) := by
    intro r o; simp [exSquareOnly, Matrix.one_apply]
  have h : ∀ p, ¬ |exSquareOnly.fitWide (quadraticWeights (fun o _ => (![-1, 1] : Fin 2 → ℝ) o) (fun _ => 1 / 4)
      (1 / 10 / (1 - 1 / 10)) p) p + exSquareOnly.fitWide (quadraticWeights (fun o _ => (![-1, 1] : Fin 2 → ℝ) o)
      (fun _ => 1 / 4) (-(1 / 10 / (1 - 1 / 10))) p) p - 2 * 1| ≤ 1e-10 := by
    intro p
    unfold quadraticWeights
    norm_num [fitWide_some hM]
    norm_num [exSquareOnly, exSquare, Fin.sum_univ_two, abs_of_pos]
  unfold efronQuadraticCoef
  simp only
  rw [if_neg (fun c => c () (h ())), if_pos h]
  refine ⟨_, rfl, ?_⟩
  beta_reduce
  rw [if_neg (by norm_num)]
  refine ⟨_, rfl, ?_⟩
  refine div_ne_zero (fun e => h () ?_) (by norm_num)
  rw [show ∀ x y : ℝ, x + y - 2 * 1 = x - 2 * 1 + y from fun x y => by ring, e]
  norm_num

end Pylogit
