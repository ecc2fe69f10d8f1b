import Mathlib.Tactic
import Verif.Spec.Summaries
import Verif.Props.FitStore

/-!
# What the summaries of a model object show after a history of fits (C102, C103)
-/

namespace Pylogit

open Spec

noncomputable section

/-! ## Helper lemmas -/

/-- The attributes that only the last steps of a fit write. -/
private def late (s : FitAttrs) :=
  (s.summary, s.fitSummary, s.nobs, s.dfModel, s.dfResid, s.llf, s.bse, s.aic, s.bic)

private lemma fitCall_late (sf : ℝ → ℝ) (c : FitCall) (s : FitState)
    (h : ∀ r, c.outcome = .results r → (fitCall sf c s).2 ≠ none) :
    late (fitCall sf c s).1.attrs = late s.attrs := by
  unfold fitCall at h ⊢
  cases hc : c.outcome with
  | failed e => rfl
  | justPoint => rfl
  | results r =>
    have := h r hc
    simp only [hc] at this ⊢
    cases he : (storeFitResults sf r s.attrs).2 with
    | none => exact absurd he this
    | some e =>
      obtain ⟨-, h1, h2, h3, h4, h5, h6, h7, h8, h9⟩ := failed_store_mixture sf r s.attrs
        (storeFitResults sf r s.attrs).1 e (Prod.ext rfl he)
      simp only [late, h1, h2, h3, h4, h5, h6, h7, h8, h9]

private lemma noneStores_late (sf : ℝ → ℝ) (cs : List FitCall) (s : FitState)
    (h : NoneStores sf cs s) : late (fitCalls sf cs s).attrs = late s.attrs := by
  induction cs generalizing s with
  | nil => rfl
  | cons c cs ih => exact (ih _ h.2).trans (fitCall_late sf c s h.1)

private lemma rows_ofFn (z : ℝ) {n : ℕ} (l : Fin n → String) (b : Fin n → ℝ)
    (e t p se : Fin n → Option ℝ) :
    statsmodelsRows z (List.ofFn l) (List.ofFn b) (List.ofFn e) (List.ofFn t) (List.ofFn p)
      (List.ofFn se) = List.ofFn fun i => ⟨l i, b i, e i, t i, p i,
        (se i).map fun v => b i - z * v, (se i).map fun v => b i + z * v⟩ := by
  induction n with
  | zero => simp [statsmodelsRows]
  | succ n ih => simp [List.ofFn_succ, statsmodelsRows, ih]

/-! ## `print_summaries` -/

/-- C102.  Take any history of calls of `fit_mle`, then a call that stores the results `r` without
an exception, then any calls none of which does - also calls that raise while they store their
results.  `print_summaries` shows the fit summary and the table of parameters of `r`: the numbers
belonging to `r`, with the inferential results computed from its Hessian and Fisher information. -/
theorem print_summaries_latest (sf : ℝ → ℝ) (before after : List FitCall) (c : FitCall)
    (r : FitResults) (s : FitState) (hc : c.outcome = .results r)
    (hok : (fitCall sf c (fitCalls sf before s)).2 = none)
    (hafter : NoneStores sf after (fitCalls sf (before ++ [c]) s)) (x : Fin r.n → ℝ)
    (hx : r.split.nests.getD [] ++ (r.split.shapes.getD [] ++ (r.split.intercepts.getD [] ++
      r.split.index)) = List.ofFn x) :
    ∃ (names : Fin r.n → String) (inf inf' : Inference r.n),
      storeInference sf x r.hessian r.fisher = .ok inf ∧
      adjustInference names r.constrained inf = .ok inf' ∧
      printSummaries (fitCalls sf (before ++ c :: after) s).attrs =
        .ok (⟨r.n, r.chosenProbs.length, r.nullLL, r.finalLL, r.rhoSq, r.rhoBarSq, r.message⟩,
          ⟨List.ofFn names,
            [("parameters", List.ofFn fun i => some (x i)), ("std_err", List.ofFn inf'.stdErrs),
             ("t_stats", List.ofFn inf'.tvalues), ("p_values", List.ofFn inf'.pvalues),
             ("robust_std_err", List.ofFn inf'.robustStdErrs),
             ("robust_t_stats", List.ofFn inf'.robustTStats),
             ("robust_p_values", List.ofFn inf'.robustPVals)]⟩) := by
  have hl := noneStores_late sf after _ hafter
  rw [← fitCalls_append, List.append_assoc, List.singleton_append] at hl
  obtain ⟨h1, h2⟩ := fits_latest sf before [] c r s hc hok (by simp)
  obtain ⟨names, inf, inf', hi, hi', -, -, -, -, -, -, -, -, -, -, -, -, -, hs, -, -, -, -, -, -, -,
    -, -, hf, -⟩ := store_fit_consistent sf r s.attrs _ (Prod.ext rfl h2) x hx
  refine ⟨names, inf, inf', hi, hi', ?_⟩
  rw [h1] at hl
  simp only [late, Prod.mk.injEq] at hl
  unfold printSummaries
  rw [hl.1, hl.2.1, hs, hf]

/-- C102, the refusal.  On an object on which no call has stored its results without an exception,
`print_summaries` raises `NotImplementedError`. -/
theorem print_summaries_unfitted (sf : ℝ → ℝ) (cs : List FitCall) (s : FitState)
    (hs : Unfitted s) (h : NoneStores sf cs s) :
    printSummaries (fitCalls sf cs s).attrs = .error .notImplementedError := by
  have hl := noneStores_late sf cs s h
  rw [hs] at hl
  simp only [late, Prod.mk.injEq] at hl
  unfold printSummaries
  rw [hl.1, hl.2.1]

/-- Every history falls under one of the two theorems: either no call stores its results, or there
is a last one that does. -/
theorem summaries_dichotomy (sf : ℝ → ℝ) (cs : List FitCall) (s : FitState) :
    NoneStores sf cs s ∨ ∃ before c after r, cs = before ++ c :: after ∧ c.outcome = .results r ∧
      (fitCall sf c (fitCalls sf before s)).2 = none ∧
      NoneStores sf after (fitCalls sf (before ++ [c]) s) := by
  induction cs generalizing s with
  | nil => exact Or.inl trivial
  | cons c cs ih =>
    rcases ih (fitCall sf c s).1 with h | ⟨b, d, a, r, rfl, h1, h2, h3⟩
    · by_cases hc : ∀ r, c.outcome = .results r → (fitCall sf c s).2 ≠ none
      · exact Or.inl ⟨hc, h⟩
      · push Not at hc
        obtain ⟨r, hr, hn⟩ := hc
        exact Or.inr ⟨[], c, cs, r, rfl, hr, hn, h⟩
    · exact Or.inr ⟨c :: b, d, a, r, rfl, h1, h2, h3⟩

/-! ## `get_statsmodels_summary` -/

/-- Without statsmodels the summary is that of `print_summaries`, for every object. -/
theorem statsmodels_fallback (ppf : ℝ → ℝ) (alpha : ℝ) (s : FitAttrs) :
    (∀ f t, statsmodelsSummary false ppf alpha s = .ok (.printed f t) ↔
      printSummaries s = .ok (f, t)) ∧
    (∀ e, statsmodelsSummary false ppf alpha s = .error e ↔ printSummaries s = .error e) := by
  unfold statsmodelsSummary
  cases h : printSummaries s with
  | error e => simp [bind, Except.bind]
  | ok v =>
    obtain ⟨f, t⟩ := v
    simp [bind, Except.bind, pure, Except.pure]

/-- C103, the part that holds.  Take any history of calls, then a call that stores the results `r`
without an exception, then calls that store nothing.  Everything in the statsmodels summary belongs
to `r`, and each row carries the interval of its own parameter.  Missing: calls that raise while
they store their results, see `statsmodels_mixture`. -/
theorem statsmodels_latest_partial (sf ppf : ℝ → ℝ) (alpha : ℝ) (before after : List FitCall)
    (c : FitCall) (r : FitResults) (s : FitState) (hc : c.outcome = .results r)
    (hok : (fitCall sf c (fitCalls sf before s)).2 = none)
    (hafter : ∀ d ∈ after, ∀ r', d.outcome ≠ .results r') (x : Fin r.n → ℝ)
    (hx : r.split.nests.getD [] ++ (r.split.shapes.getD [] ++ (r.split.intercepts.getD [] ++
      r.split.index)) = List.ofFn x) :
    ∃ (names : Fin r.n → String) (inf inf' : Inference r.n),
      storeInference sf x r.hessian r.fisher = .ok inf ∧
      adjustInference names r.constrained inf = .ok inf' ∧
      statsmodelsSummary true ppf alpha (fitCalls sf (before ++ c :: after) s).attrs =
        .ok (.table
          ⟨2 * r.n - 2 * r.finalLL, r.n * Real.log r.chosenProbs.length - 2 * r.finalLL,
            r.chosenProbs.length, (r.chosenProbs.length : ℤ) - r.n, r.n, r.rhoSq, r.rhoBarSq,
            r.finalLL, r.nullLL⟩
          (List.ofFn fun i => ⟨names i, x i, inf'.stdErrs i, inf'.tvalues i, inf'.pvalues i,
            (confIntAll ppf x inf'.stdErrs alpha i).1,
            (confIntAll ppf x inf'.stdErrs alpha i).2⟩)) := by
  obtain ⟨h1, h2⟩ := fits_latest sf before after c r s hc hok hafter
  obtain ⟨names, inf, inf', hi, hi', hp, hse, ht, hpv, -, -, -, hbse, -, -, -, -, -, -, hll, hllf,
    hl0, -, hn, hdm, hdr, haic, hbic, -, hrho, hrb, hsu, -⟩ :=
      store_fit_consistent sf r s.attrs _ (Prod.ext rfl h2) x hx
  refine ⟨names, inf, inf', hi, hi', ?_⟩
  unfold statsmodelsSummary
  rw [h1, hsu, haic, hbic, hn, hdr, hdm, hrho, hrb, hllf, hll, hl0, hp, hbse, ht, hpv, hse]
  simp only [Bool.true_eq_false, if_false, reduceCtorEq]
  rw [rows_ofFn]
  rfl

/-- Whenever `store_fit_results` raises, a statsmodels summary made afterwards shows the rho-squares
and the null log-likelihood of the failed fit beside the log-likelihood, AIC, BIC and counts of the
fit before it. -/
theorem statsmodels_after_failed_store (sf ppf : ℝ → ℝ) (alpha : ℝ) (r : FitResults)
    (s t : FitAttrs) (e : Err) (h : storeFitResults sf r s = (t, some e)) (top : StatsmodelsTop)
    (rows : List StatsmodelsRow) (ht : statsmodelsSummary true ppf alpha t = .ok (.table top rows)) :
    (top.rhoSq = r.rhoSq ∧ top.rhoBarSq = r.rhoBarSq ∧ top.nullLL = r.nullLL) ∧
      (some top.aic = s.aic ∧ some top.bic = s.bic ∧ some top.nobs = s.nobs ∧
        some top.dfResid = s.dfResid ∧ some top.dfModel = s.dfModel ∧ some top.llf = s.llf) := by
  obtain ⟨⟨-, h1, -, -, -, -, -, h2, h3, h4, -⟩, -, -, h5, h6, h7, h8, -, h9, h10⟩ :=
    failed_store_mixture sf r s t e h
  unfold statsmodelsSummary at ht
  rw [h1, h2, h3, h4, h5, h6, h7, h8, h9, h10] at ht
  simp only [Bool.true_eq_false, if_false, reduceCtorEq] at ht
  split at ht
  · rename_i q1 q2 q3 q4 q5 q6 q7 q8 q9
    split at ht
    · cases ht
      simp only [Option.some.injEq] at q6 q7 q9
      exact ⟨⟨q6.symm, q7.symm, q9.symm⟩, q1.symm, q2.symm, q3.symm, q4.symm, q5.symm, q8.symm⟩
    · simp at ht
  · simp at ht

/-- On an object on which no call has stored its results without an exception, statsmodels summaries
raise `NotImplementedError` as documented when no call got as far as storing, and `AttributeError`
otherwise. -/
theorem statsmodels_unfitted (sf ppf : ℝ → ℝ) (alpha : ℝ) (cs : List FitCall) (s : FitState)
    (hs : Unfitted s) (h : NoneStores sf cs s) :
    statsmodelsSummary true ppf alpha (fitCalls sf cs s).attrs =
      .error (open Classical in
        if ∃ c ∈ cs, ∃ r, c.outcome = .results r then .attributeError else .notImplementedError) := by
  have hl := noneStores_late sf cs s h
  rw [hs] at hl
  simp only [late, Prod.mk.injEq] at hl
  by_cases hr : ∃ c ∈ cs, ∃ r, c.outcome = .results r
  · rw [if_pos hr]
    have key : ∀ (cs : List FitCall) (s : FitState), NoneStores sf cs s →
        (s.attrs.success ≠ none ∨ ∃ c ∈ cs, ∃ r, c.outcome = .results r) →
        (fitCalls sf cs s).attrs.success ≠ none := by
      intro cs
      induction cs with
      | nil => intro s _ h; simpa [fitCalls] using h
      | cons c cs ih =>
        intro s hn hh
        refine ih _ hn.2 ?_
        cases hc : c.outcome with
        | failed e => simpa [fitCall, hc] using hh
        | justPoint => simpa [fitCall, hc] using hh
        | results r =>
          left
          have h1 := hn.1 r hc
          simp only [fitCall, hc] at h1 ⊢
          cases he : (storeFitResults sf r s.attrs).2 with
          | none => exact absurd he h1
          | some e =>
            obtain ⟨⟨-, -, -, -, -, -, -, -, -, h4, -⟩, -⟩ := failed_store_mixture sf r s.attrs
              (storeFitResults sf r s.attrs).1 e (Prod.ext rfl he)
            rw [h4]; simp
    have := key cs s h (Or.inr hr)
    unfold statsmodelsSummary
    rw [hl.2.2.2.2.2.2.2.1]
    simp [this]
  · rw [if_neg hr]
    push Not at hr
    have := fitCalls_quiet sf cs hr s
    unfold statsmodelsSummary
    rw [this, hs]
    simp

/-! ## Concrete histories -/

/-- A fit whose Hessian is singular and whose rho-squared is one half. -/
def exSingular : FitResults := { exResults (-3/2) 5 0 none with rhoSq := 1/2 }

private lemma exSingular_det : ¬ IsUnit exSingular.hessian.det := by
  show ¬ IsUnit (Matrix.det (Matrix.of fun _ _ : Fin 1 => (0 : ℝ)))
  rw [Matrix.det_unique]; simp

private lemma exSingular_fails (sf : ℝ → ℝ) (s : FitState) (ρ : Option ℝ) :
    (fitCall sf ⟨ρ, .results exSingular⟩ s).2 ≠ none := by
  show (storeFitResults sf exSingular s.attrs).2 ≠ none
  rw [Ne, store_fit_iff]
  exact fun h => exSingular_det h.regular

/-- Non-vacuity of `print_summaries_latest`: a completed fit between one that fails while storing
and another one. -/
example (sf : ℝ → ℝ) :
    (fitCall sf ⟨none, .results (exResults (-1) 4 (-2) (some [-1]))⟩
      (fitCalls sf [⟨none, .results exSingular⟩] exFresh)).2 = none ∧
    NoneStores sf [⟨some 1, .results exSingular⟩, ⟨none, .justPoint⟩]
      (fitCalls sf ([⟨none, .results exSingular⟩] ++
        [⟨none, .results (exResults (-1) 4 (-2) (some [-1]))⟩]) exFresh) := by
  refine ⟨?_, fun r _ => exSingular_fails sf _ _, by simp, trivial⟩
  simp only [fitCall]
  rw [store_fit_iff]
  exact storable_congr (fitCalls_names sf _ exFresh).symm
    (exStorable (-1) 4 (-2) (by norm_num) _ (Or.inr rfl))

/-- Non-vacuity of `print_summaries_unfitted` and `statsmodels_unfitted`. -/
example (sf : ℝ → ℝ) : Unfitted exFresh ∧ NoneStores sf [⟨none, .results exSingular⟩] exFresh :=
  ⟨rfl, fun _ _ => exSingular_fails sf _ _, trivial⟩

/-- C103 is false of the code.  A fit is stored (coefficient 1, log-likelihood -2, rho-squared 0); a
second one raises on a singular Hessian (log-likelihood -1.5, rho-squared one half).  The
statsmodels summary then shows rho-squared one half with the log-likelihood -2 and the coefficient 1,
while `print_summaries` shows rho-squared 0 with them. -/
theorem statsmodels_mixture (sf ppf : ℝ → ℝ) (alpha : ℝ) :
    ∃ top rows f t,
      statsmodelsSummary true ppf alpha (fitCalls sf [⟨none, .results (exResults (-2) 1 (-1) none)⟩,
        ⟨none, .results exSingular⟩] exFresh).attrs = .ok (.table top rows) ∧
      printSummaries (fitCalls sf [⟨none, .results (exResults (-2) 1 (-1) none)⟩,
        ⟨none, .results exSingular⟩] exFresh).attrs = .ok (f, t) ∧
      top.rhoSq = 1/2 ∧ top.llf = -2 ∧ rows.map StatsmodelsRow.coef = [1] ∧
      f.rhoSq = 0 ∧ f.finalLL = -2 := by
  have h1 := exStorable (-2) 1 (-1) (by norm_num) none (Or.inl rfl)
  have e0 := (store_fit_iff sf (exResults (-2) 1 (-1) none) exFresh.attrs).mpr h1
  obtain ⟨names, inf, inf', -, -, hp, hse, ht, hpv, -, -, -, hbse, -, -, -, -, -, hsum, hll, hllf,
    hl0, -, hn, hdm, hdr, haic, hbic, hfs, -⟩ := store_fit_consistent sf
      (exResults (-2) 1 (-1) none) exFresh.attrs _ (Prod.ext rfl e0) (fun _ => 1)
      (by simp [exResults])
  have h2 : Storable (storeFitResults sf (exResults (-2) 1 (-1) none) exFresh.attrs).1.names
      (exResults (-3/2) 5 (-1) none) :=
    storable_congr (by rw [store_names, addMixingNames_idempotent])
      (exStorable (-3/2) 5 (-1) (by norm_num) none (Or.inl rfl))
  obtain ⟨t, hst, -, -, -, spar, -, sse, stv, spv, -⟩ := singular_hessian_mixture sf exSingular
    (exResults (-3/2) 5 (-1) none) _ h2 rfl rfl exSingular_det
  obtain ⟨⟨-, f1, -, -, -, -, -, f2, f3, f4, -⟩, g1, g2, g3, g4, g5, g6, g7, g8, g9⟩ :=
    failed_store_mixture sf _ _ _ _ hst
  simp only [fitCalls, fitCall, hst]
  unfold statsmodelsSummary printSummaries
  rw [f1, f2, f3, f4, g1, g2, g3, g4, g5, g6, g7, g8, g9, spar, sse, stv, spv, hp, hse, ht, hpv,
    hbse, hsum, hllf, hll, hse, hn, hdm, hdr, haic, hbic, hfs]
  simp only [Bool.true_eq_false, if_false, reduceCtorEq]
  rw [rows_ofFn]
  refine ⟨_, _, _, _, rfl, rfl, rfl, rfl, ?_, rfl, rfl⟩
  rw [List.map_ofFn]
  simp [exResults]

end

end Pylogit
