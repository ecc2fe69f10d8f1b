import Mathlib.Tactic
import Verif.Spec.FitStore
import Verif.Props.Results
import Verif.Props.Inference
import Verif.Props.Estimation

/-!
# Histories of fits and the attributes they leave behind (C90)
-/

namespace Pylogit

open Spec

/-! ## Helper lemmas -/

private lemma mk_ok {V : Type} {v : List V} {N : List String} (h : v.length = N.length) :
    mkSeries v N = .ok ⟨N, v⟩ := by simp [mkSeries, h]

private lemma mk_err {V : Type} {v : List V} {N : List String} (h : ¬ v.length = N.length) :
    mkSeries v N = .error .valueError := by simp [mkSeries, h]

private lemma lab_ok {n : ℕ} {M : Matrix (Fin n) (Fin n) ℝ} {N : List String} (h : n = N.length) :
    mkLabelled M N = .ok ⟨N, List.ofFn fun i => List.ofFn (M i)⟩ := by simp [mkLabelled, h]

private lemma lab_err {n : ℕ} {M : Matrix (Fin n) (Fin n) ℝ} {N : List String}
    (h : ¬ n = N.length) : mkLabelled M N = .error .valueError := by simp [mkLabelled, h]

private lemma diag_ofFn {n : ℕ} (M : Matrix (Fin n) (Fin n) ℝ) (N : List String) :
    (LabelledMatrix.mk N (List.ofFn fun i => List.ofFn (M i))).diag = List.ofFn fun i => M i i := by
  apply List.ext_getElem
  · simp [LabelledMatrix.diag]
  · intro i h1 h2
    simp only [List.length_ofFn] at h2
    simp [LabelledMatrix.diag, h2]

private lemma opt_ok {p : Option (List ℝ)} {given : Option (List String)} {pre : String}
    (h : ∀ q g, p = some q → given = some g → g.length = q.length) :
    optionalSeries p given pre = .ok (p.map fun v => ⟨optionalNames given pre v.length, v⟩) := by
  cases p with
  | none => rfl
  | some q =>
    have : q.length = (optionalNames given pre q.length).length := by
      cases given with
      | none => simp [optionalNames]
      | some g => exact (h q g rfl rfl).symm
    simp [optionalSeries, mk_ok this, bind, Except.bind, pure, Except.pure]

private lemma opt_err {p : Option (List ℝ)} {given : Option (List String)} {pre : String}
    (h : ¬ ∀ q g, p = some q → given = some g → g.length = q.length) :
    optionalSeries p given pre = .error .valueError := by
  push Not at h
  obtain ⟨q, g, rfl, rfl, hne⟩ := h
  simp [optionalSeries, optionalNames, mk_err (v := q) (N := g) (fun e => hne e.symm), bind,
    Except.bind]

private lemma optionalLabels_length {p : Option (List ℝ)} {given : Option (List String)}
    {pre : String} (h : ∀ q g, p = some q → given = some g → g.length = q.length) :
    (optionalLabels p given pre).length = (p.getD []).length := by
  cases p with
  | none => rfl
  | some q =>
    cases given with
    | none => simp [optionalLabels, optionalNames]
    | some g => simpa [optionalLabels, optionalNames] using h q g rfl rfl

private lemma allNames_length {r : FitResults} {a : NameAttrs} (h : Storable a r) :
    (allNames r (addMixingNames a)).length = r.n ∧ (allParams r).length = r.n := by
  have e : (addMixingNames a).interceptNames = a.interceptNames ∧
      (addMixingNames a).shapeNames = a.shapeNames ∧
      (addMixingNames a).nestNames = a.nestNames := by
    unfold addMixingNames
    cases a.mixingVars <;> simp
    split_ifs <;> simp
  refine ⟨?_, ?_⟩
  · rw [h.size]
    simp only [allNames, List.length_append, e.1, e.2.1, e.2.2]
    rw [optionalLabels_length h.nests, optionalLabels_length h.shapes,
      optionalLabels_length h.intercepts, h.index]
  · rw [h.size]; simp [allParams]

private lemma runSteps_append (xs ys : List Step) (s : FitAttrs) :
    runSteps (xs ++ ys) s = match runSteps xs s with
      | (s', none) => runSteps ys s'
      | (s', some e) => (s', some e) := by
  induction xs generalizing s with
  | nil => rfl
  | cons f fs ih =>
    simp only [List.cons_append, runSteps]
    cases f s with
    | error e => rfl
    | ok s' => exact ih s'

private lemma pyGet_iff {xs : List String} {pos : ℤ} :
    (∃ x, pyGet xs pos = .ok x) ↔ -(xs.length : ℤ) ≤ pos ∧ pos < xs.length := by
  unfold pyGet
  simp only
  split_ifs with h1 h2 h2 <;> simp <;> omega

/-- Blanking every label of the list. -/
private def wipe (ls : List String) (x : Series (Option ℝ)) : Series (Option ℝ) :=
  ls.foldl Series.setNaN x

/-- An update of one attribute that leaves the parameters alone. -/
private structure IsUpdate (upd : (Series (Option ℝ) → Series (Option ℝ)) → FitAttrs → FitAttrs) :
    Prop where
  params : ∀ f s, (upd f s).params = s.params
  id : ∀ s, upd (fun x => x) s = s
  comp : ∀ f g s, upd f (upd g s) = upd (fun x => f (g x)) s

private lemma isUpdate_all : ∀ upd ∈ constrainedAttrs, IsUpdate upd := by
  intro upd h
  simp only [constrainedAttrs, List.mem_cons, List.not_mem_nil, or_false] at h
  rcases h with rfl | rfl | rfl | rfl | rfl | rfl <;>
    exact ⟨fun f s => rfl, fun s => by simp, fun f g s => by simp [Function.comp_def]⟩

private lemma constrain_ok {upd} (hu : IsUpdate upd) (p : Series ℝ) (cs : List ℤ) (ls : List String)
    (h : cs.mapM (pyGet p.index) = .ok ls) (s : FitAttrs) (hs : s.params = some p) :
    runSteps (cs.map fun pos => constrainOne upd pos) s = (upd (wipe ls) s, none) := by
  induction cs generalizing s ls with
  | nil =>
    simp only [List.mapM_nil, pure, Except.pure, Except.ok.injEq] at h
    subst h
    simp only [List.map_nil, runSteps]
    rw [show (wipe [] : Series (Option ℝ) → _) = fun x => x from rfl, hu.id]
  | cons c cs ih =>
    rw [List.mapM_cons] at h
    cases hc : pyGet p.index c with
    | error e => simp [hc, bind, Except.bind] at h
    | ok l =>
      cases hr : cs.mapM (pyGet p.index) with
      | error e => simp [hc, hr, bind, Except.bind] at h
      | ok ls' =>
        simp only [hc, hr, bind, Except.bind, pure, Except.pure, Except.ok.injEq] at h
        subst h
        simp only [List.map_cons, runSteps, constrainOne, hs, hc, bind, Except.bind, pure,
          Except.pure]
        rw [ih ls' hr _ (by rw [hu.params, hs]), hu.comp]
        rfl

private lemma constrain_err {upd} (hu : IsUpdate upd) (p : Series ℝ) (cs : List ℤ)
    (h : ∃ pos ∈ cs, ∀ l, pyGet p.index pos ≠ .ok l) (s : FitAttrs) (hs : s.params = some p) :
    ∃ s', runSteps (cs.map fun pos => constrainOne upd pos) s = (s', some .indexError) := by
  induction cs generalizing s with
  | nil => simp at h
  | cons c cs ih =>
    cases hc : pyGet p.index c with
    | error e =>
      have : e = .indexError := by
        unfold pyGet at hc
        simp only at hc
        split_ifs at hc <;> simp_all
      subst this
      exact ⟨s, by simp [runSteps, constrainOne, hs, hc, bind, Except.bind]⟩
    | ok l =>
      obtain ⟨pos, hp, hl⟩ := h
      have hp' : pos ∈ cs := by
        rcases List.mem_cons.mp hp with rfl | h
        · exact absurd hc (hl l)
        · exact h
      obtain ⟨s', hs'⟩ := ih ⟨pos, hp', hl⟩ (upd (fun x => x.setNaN l) s) (by rw [hu.params, hs])
      exact ⟨s', by simpa [runSteps, constrainOne, hs, hc, bind, Except.bind, pure, Except.pure]
        using hs'⟩

private lemma mapM_exists (p : Series ℝ) (cs : List ℤ)
    (h : ∀ pos ∈ cs, ∃ l, pyGet p.index pos = .ok l) :
    ∃ ls, cs.mapM (pyGet p.index) = .ok ls := by
  induction cs with
  | nil => exact ⟨[], rfl⟩
  | cons c cs ih =>
    obtain ⟨l, hl⟩ := h c (by simp)
    obtain ⟨ls, hls⟩ := ih fun q hq => h q (by simp [hq])
    exact ⟨l :: ls, by simp [List.mapM_cons, hl, hls, bind, Except.bind, pure, Except.pure]⟩

/-- The labels of the constrained parameters. -/
private noncomputable def wiped (r : FitResults) (N : List String) : Except Err (List String) :=
  match r.constrained with
  | none => .ok []
  | some cs => cs.mapM (pyGet N)

private lemma constrainSteps_ok (r : FitResults) (p : Series ℝ) (ls : List String)
    (h : wiped r p.index = .ok ls) (s : FitAttrs) (hs : s.params = some p) :
    runSteps (constrainSteps r) s = ({ s with
      stdErrs := s.stdErrs.map (wipe ls), tvalues := s.tvalues.map (wipe ls),
      pvalues := s.pvalues.map (wipe ls), robustStdErrs := s.robustStdErrs.map (wipe ls),
      robustTStats := s.robustTStats.map (wipe ls),
      robustPVals := s.robustPVals.map (wipe ls) }, none) := by
  unfold constrainSteps
  unfold wiped at h
  cases hc : r.constrained with
  | none =>
    simp only [hc, Except.ok.injEq] at h
    subst h
    have : (wipe [] : Series (Option ℝ) → _) = id := rfl
    simp [runSteps, this]
  | some cs =>
    simp only [hc] at h
    have key : ∀ upd ∈ constrainedAttrs, ∀ s : FitAttrs, s.params = some p →
        runSteps (cs.map fun pos => constrainOne upd pos) s = (upd (wipe ls) s, none) :=
      fun upd hu s hs => constrain_ok (isUpdate_all upd hu) p cs ls h s hs
    simp only [constrainedAttrs, List.flatMap_cons, List.flatMap_nil, List.append_nil]
    simp only [constrainedAttrs, List.mem_cons, List.not_mem_nil, or_false, forall_eq_or_imp,
      forall_eq] at key
    obtain ⟨k1, k2, k3, k4, k5, k6⟩ := key
    rw [runSteps_append, k1]
    swap; · exact hs
    simp only
    rw [runSteps_append, k2]
    swap; · exact hs
    simp only
    rw [runSteps_append, k3]
    swap; · exact hs
    simp only
    rw [runSteps_append, k4]
    swap; · exact hs
    simp only
    rw [runSteps_append, k5]
    swap; · exact hs
    simp only
    rw [k6]
    exact hs

private lemma constrainSteps_err (r : FitResults) (p : Series ℝ) (cs : List ℤ)
    (hc : r.constrained = some cs) (h : ∃ pos ∈ cs, ∀ l, pyGet p.index pos ≠ .ok l) (s : FitAttrs)
    (hs : s.params = some p) :
    ∃ s', runSteps (constrainSteps r) s = (s', some .indexError) := by
  simp only [constrainSteps, hc, constrainedAttrs, List.flatMap_cons]
  obtain ⟨s', h'⟩ := constrain_err (isUpdate_all _ (by simp [constrainedAttrs]) :
    IsUpdate fun f s => { s with stdErrs := s.stdErrs.map f }) p cs h s hs
  exact ⟨s', by rw [runSteps_append, h']⟩

noncomputable section

/-- The attributes once the inferential results have been stored, before the constraints. -/
private def coreAttrs (sf : ℝ → ℝ) (r : FitResults) (a : NameAttrs) (s : FitAttrs) : FitAttrs :=
  let N := allNames r a
  let se := List.ofFn fun i => sqrtNaN (((-1 : ℝ) • r.hessian⁻¹) i i)
  let t := List.zipWith divNaN (allParams r) se
  let rse := List.ofFn fun i => sqrtNaN (asymptoticCovariance r.hessian r.fisher i i)
  let rt := List.zipWith divNaN (allParams r) rse
  { s with
    names := a
    logLik := some r.finalLL, fittedProbs := some r.chosenProbs,
    longFittedProbs := some r.longProbs, longResiduals := some r.residuals,
    indChiSquareds := some r.indChi, chiSquare := some (r.indChi.map List.sum).sum,
    success := some r.success, message := some r.message,
    rhoSq := some r.rhoSq, rhoBarSq := some r.rhoBarSq, nullLL := some r.nullLL
    intercepts := r.split.intercepts.map fun v =>
      ⟨optionalNames a.interceptNames "Outside_ASC_" v.length, v⟩
    shapes := r.split.shapes.map fun v => ⟨optionalNames a.shapeNames "Shape_" v.length, v⟩
    nests := r.split.nests.map fun v => ⟨optionalNames a.nestNames "Nest_Param_" v.length, v⟩
    coefs := some ⟨a.indVarNames, r.split.index⟩
    gradient := some ⟨N, List.ofFn r.gradient⟩
    hessian := some ⟨N, List.ofFn fun i => List.ofFn (r.hessian i)⟩
    cov := some ⟨N, List.ofFn fun i => List.ofFn (((-1 : ℝ) • r.hessian⁻¹) i)⟩
    params := some ⟨N, allParams r⟩
    stdErrs := some ⟨N, se⟩
    tvalues := some ⟨N, t⟩
    pvalues := some ⟨N, t.map (twoSidedP sf)⟩
    fisher := some ⟨N, List.ofFn fun i => List.ofFn (r.fisher i)⟩
    robustCov := some ⟨N, List.ofFn fun i =>
      List.ofFn (asymptoticCovariance r.hessian r.fisher i)⟩
    robustStdErrs := some ⟨N, rse⟩
    robustTStats := some ⟨N, rt⟩
    robustPVals := some ⟨N, rt.map (twoSidedP sf)⟩ }

/-- The attributes after everything has been stored. -/
private def finalAttrs (sf : ℝ → ℝ) (r : FitResults) (a : NameAttrs) (ls : List String) :
    FitAttrs :=
  let c := coreAttrs sf r a { names := a }
  let N := allNames r a
  let w := fun o : Option (Series (Option ℝ)) => o.map (wipe ls)
  let v := fun o : Option (Series (Option ℝ)) => ((w o).map Series.values).getD []
  { c with
    stdErrs := w c.stdErrs, tvalues := w c.tvalues, pvalues := w c.pvalues
    robustStdErrs := w c.robustStdErrs, robustTStats := w c.robustTStats
    robustPVals := w c.robustPVals
    summary := some ⟨N, [("parameters", (allParams r).map some), ("std_err", v c.stdErrs),
      ("t_stats", v c.tvalues), ("p_values", v c.pvalues), ("robust_std_err", v c.robustStdErrs),
      ("robust_t_stats", v c.robustTStats), ("robust_p_values", v c.robustPVals)]⟩
    nobs := some r.chosenProbs.length
    dfModel := some (allParams r).length
    dfResid := some ((r.chosenProbs.length : ℤ) - (allParams r).length)
    llf := some r.finalLL
    bse := w c.stdErrs
    aic := some (computeAIC r.finalLL (allParams r).length)
    bic := some (computeBIC r.finalLL r.chosenProbs.length (allParams r).length)
    fitSummary := some ⟨(allParams r).length, r.chosenProbs.length, r.nullLL, r.finalLL, r.rhoSq,
      r.rhoBarSq, r.message⟩ }

private def firstSteps (sf : ℝ → ℝ) (r : FitResults) (names : List String) : List Step :=
  [storeIntercepts r, storeShapes r, storeNests r, storeCoefs r, storeGradient r names,
   storeHessian r names, storeCov r names, storeAllParams r names, storeStdErrs names, storeTvalues,
   storePvalues sf names, storeFisher r names, storeRobustCov r names, storeRobustStdErrs names,
   storeRobustT, storeRobustP sf names]

private lemma store_unfold (sf : ℝ → ℝ) (r : FitResults) (s : FitAttrs) :
    storeFitResults sf r s = runSteps ((storeBasic r :: storeMixingNames ::
      firstSteps sf r (allNames r (addMixingNames s.names))) ++ (constrainSteps r ++
        [storeSummary, recordValues, storeFitSummary])) s := by
  simp [storeFitResults, storeSteps, firstSteps]

private lemma attrs_eq (a : NameAttrs) :
    (addMixingNames a).interceptNames = a.interceptNames ∧
      (addMixingNames a).shapeNames = a.shapeNames ∧
      (addMixingNames a).nestNames = a.nestNames := by
  unfold addMixingNames
  cases a.mixingVars <;> simp
  split_ifs <;> simp

private lemma core_run (sf : ℝ → ℝ) (r : FitResults) (s : FitAttrs)
    (hN : ∀ p g, r.split.nests = some p → s.names.nestNames = some g → g.length = p.length)
    (hS : ∀ p g, r.split.shapes = some p → s.names.shapeNames = some g → g.length = p.length)
    (hI : ∀ p g, r.split.intercepts = some p → s.names.interceptNames = some g →
      g.length = p.length)
    (hx : r.split.index.length = (addMixingNames s.names).indVarNames.length)
    (hn : r.n = (allNames r (addMixingNames s.names)).length)
    (hp : (allParams r).length = (allNames r (addMixingNames s.names)).length)
    (hd : IsUnit r.hessian.det) :
    runSteps (storeBasic r :: storeMixingNames ::
      firstSteps sf r (allNames r (addMixingNames s.names))) s
      = (coreAttrs sf r (addMixingNames s.names) s, none) := by
  obtain ⟨e1, e2, e3⟩ := attrs_eq s.names
  rw [← e1] at hI
  rw [← e2] at hS
  rw [← e3] at hN
  generalize hN' : allNames r (addMixingNames s.names) = N at *
  have l1 : ∀ f : Fin r.n → ℝ, (List.ofFn f).length = N.length := by simp [hn]
  simp only [firstSteps, runSteps, storeBasic, storeMixingNames, storeIntercepts, opt_ok hI,
    storeShapes, opt_ok hS, storeNests, opt_ok hN, storeCoefs, mk_ok hx, storeGradient,
    mk_ok (l1 _), storeHessian, lab_ok hn, storeCov, hd, not_true_eq_false, if_false, bind,
    Except.bind, pure, Except.pure, storeAllParams, mk_ok hp, storeStdErrs, diag_ofFn,
    storeTvalues, divSeries, storePvalues, storeFisher, storeRobustCov, storeRobustStdErrs,
    storeRobustT, storeRobustP]
  have m1 : ∀ f : Fin r.n → ℝ, mkSeries ((List.ofFn f).map sqrtNaN) N
      = .ok ⟨N, (List.ofFn f).map sqrtNaN⟩ := fun f => mk_ok (by simp [hn])
  have m2 : ∀ f : Fin r.n → ℝ, mkSeries ((List.zipWith divNaN (allParams r)
      ((List.ofFn f).map sqrtNaN)).map (twoSidedP sf)) N
      = .ok ⟨N, (List.zipWith divNaN (allParams r) ((List.ofFn f).map sqrtNaN)).map
        (twoSidedP sf)⟩ := fun f => mk_ok (by simp [hn, hp])
  simp only [m1, m2]
  simp only [coreAttrs, hN', List.map_ofFn, Function.comp_def]

private lemma store_ok (sf : ℝ → ℝ) (r : FitResults) (s : FitAttrs) (h : Storable s.names r) :
    ∃ ls, wiped r (allNames r (addMixingNames s.names)) = .ok ls ∧
      storeFitResults sf r s = (finalAttrs sf r (addMixingNames s.names) ls, none) := by
  obtain ⟨hn, hp⟩ := allNames_length h
  have hw : ∃ ls, wiped r (allNames r (addMixingNames s.names)) = .ok ls := by
    unfold wiped
    cases hc : r.constrained with
    | none => exact ⟨[], rfl⟩
    | some cs =>
      refine mapM_exists ⟨allNames r (addMixingNames s.names), []⟩ cs fun pos hpos => ?_
      have := h.constraints cs hc pos hpos
      rw [← hn] at this
      exact pyGet_iff.mpr this
  obtain ⟨ls, hls⟩ := hw
  refine ⟨ls, hls, ?_⟩
  rw [store_unfold, runSteps_append, core_run sf r s h.nests h.shapes h.intercepts h.index.symm
    hn.symm (hp.trans hn.symm) h.regular]
  simp only
  rw [runSteps_append, constrainSteps_ok r ⟨allNames r (addMixingNames s.names), allParams r⟩ ls
    hls _ (by simp [coreAttrs])]
  simp [runSteps, storeSummary, recordValues, storeFitSummary, coreAttrs, finalAttrs]

private lemma store_bad (sf : ℝ → ℝ) (r : FitResults) (s : FitAttrs) (h : ¬ Storable s.names r) :
    ∃ t e, runSteps ((storeBasic r :: storeMixingNames ::
      firstSteps sf r (allNames r (addMixingNames s.names))) ++ constrainSteps r) s
        = (t, some e) := by
  obtain ⟨e1, e2, e3⟩ := attrs_eq s.names
  by_cases hI : ∀ p g, r.split.intercepts = some p → s.names.interceptNames = some g →
      g.length = p.length
  swap
  · rw [← e1] at hI
    exact ⟨_, .valueError, by
      simp only [firstSteps, List.cons_append, runSteps, storeBasic,
      storeMixingNames, storeIntercepts, opt_err hI, bind, Except.bind]
      rfl⟩
  have hI' := hI
  rw [← e1] at hI'
  by_cases hS : ∀ p g, r.split.shapes = some p → s.names.shapeNames = some g →
      g.length = p.length
  swap
  · rw [← e2] at hS
    exact ⟨_, .valueError, by
      simp only [firstSteps, List.cons_append, runSteps, storeBasic,
      storeMixingNames, storeIntercepts, opt_ok hI', storeShapes, opt_err hS, bind, Except.bind,
      pure, Except.pure]
      rfl⟩
  have hS' := hS
  rw [← e2] at hS'
  by_cases hN : ∀ p g, r.split.nests = some p → s.names.nestNames = some g →
      g.length = p.length
  swap
  · rw [← e3] at hN
    exact ⟨_, .valueError, by
      simp only [firstSteps, List.cons_append, runSteps, storeBasic,
      storeMixingNames, storeIntercepts, opt_ok hI', storeShapes, opt_ok hS', storeNests,
      opt_err hN, bind, Except.bind, pure, Except.pure]
      rfl⟩
  have hN' := hN
  rw [← e3] at hN'
  by_cases hx : r.split.index.length = (addMixingNames s.names).indVarNames.length
  swap
  · exact ⟨_, .valueError, by
      simp only [firstSteps, List.cons_append, runSteps, storeBasic,
      storeMixingNames, storeIntercepts, opt_ok hI', storeShapes, opt_ok hS', storeNests,
      opt_ok hN', storeCoefs, mk_err hx, bind, Except.bind, pure, Except.pure]
      rfl⟩
  by_cases hn : r.n = (allNames r (addMixingNames s.names)).length
  swap
  · have hg : ¬ (List.ofFn r.gradient).length = (allNames r (addMixingNames s.names)).length := by
      simpa using hn
    exact ⟨_, .valueError, by
      simp only [firstSteps, List.cons_append, runSteps, storeBasic,
      storeMixingNames, storeIntercepts, opt_ok hI', storeShapes, opt_ok hS', storeNests,
      opt_ok hN', storeCoefs, mk_ok hx, storeGradient, mk_err hg, bind, Except.bind, pure,
      Except.pure]
      rfl⟩
  have hg : (List.ofFn r.gradient).length = (allNames r (addMixingNames s.names)).length := by
    simpa using hn
  by_cases hd : IsUnit r.hessian.det
  swap
  · exact ⟨_, .linAlgError, by
      simp only [firstSteps, List.cons_append, runSteps,
      storeBasic, storeMixingNames, storeIntercepts, opt_ok hI', storeShapes, opt_ok hS',
      storeNests, opt_ok hN', storeCoefs, mk_ok hx, storeGradient, mk_ok hg, storeHessian,
      lab_ok hn, storeCov, hd, not_false_eq_true, if_true, bind, Except.bind, pure, Except.pure]
      rfl⟩
  have hlen : (allNames r (addMixingNames s.names)).length = (allParams r).length := by
    simp only [allNames, allParams, List.length_append, e1, e2, e3]
    rw [optionalLabels_length hN, optionalLabels_length hS, optionalLabels_length hI, hx]
  have hc : ∃ cs, r.constrained = some cs ∧ ∃ pos ∈ cs, ¬ (-(r.n : ℤ) ≤ pos ∧ pos < r.n) := by
    by_contra hcon
    push Not at hcon
    refine h ⟨hN, hS, hI, hx.symm, ?_, hd, fun cs h1 pos h2 => ?_⟩
    · rw [hn, hlen]; simp [allParams]
    · exact ⟨by by_contra hh; exact absurd (hcon cs h1 pos h2) (by tauto), by
        by_contra hh; exact absurd (hcon cs h1 pos h2) (by tauto)⟩
  obtain ⟨cs, hcs, pos, hpos, hbad⟩ := hc
  rw [runSteps_append, core_run sf r s hN hS hI hx hn hlen.symm hd]
  simp only
  obtain ⟨s', hs'⟩ := constrainSteps_err r ⟨allNames r (addMixingNames s.names), allParams r⟩ cs
    hcs ⟨pos, hpos, fun l hl => hbad (by
      have := pyGet_iff.mp ⟨l, hl⟩
      rwa [← hn] at this)⟩ (coreAttrs sf r (addMixingNames s.names) s) (by simp [coreAttrs])
  exact ⟨s', .indexError, hs'⟩

private lemma store_bad' (sf : ℝ → ℝ) (r : FitResults) (s : FitAttrs) (h : ¬ Storable s.names r) :
    ∃ t e, storeFitResults sf r s = (t, some e) ∧ runSteps ((storeBasic r :: storeMixingNames ::
      firstSteps sf r (allNames r (addMixingNames s.names))) ++ constrainSteps r) s
        = (t, some e) := by
  obtain ⟨t, e, he⟩ := store_bad sf r s h
  exact ⟨t, e, by rw [store_unfold, ← List.append_assoc, runSteps_append, he], he⟩

/-! ## When storing succeeds, and what it leaves behind -/

/-- `store_fit_results` succeeds exactly when the results suit the names of the model and the
Hessian is invertible; what was stored before does not matter. -/
theorem store_fit_iff (sf : ℝ → ℝ) (r : FitResults) (s : FitAttrs) :
    (storeFitResults sf r s).2 = none ↔ Storable s.names r := by
  constructor
  · intro h
    by_contra hbad
    obtain ⟨t, e, he, _⟩ := store_bad' sf r s hbad
    simp [he] at h
  · intro h
    obtain ⟨ls, _, hls⟩ := store_ok sf r s h
    rw [hls]

lemma storable_congr {a a' : NameAttrs} (h : addMixingNames a = addMixingNames a')
    {r : FitResults} (hs : Storable a r) : Storable a' r := by
  obtain ⟨e1, e2, e3⟩ := attrs_eq a
  obtain ⟨e1', e2', e3'⟩ := attrs_eq a'
  refine ⟨?_, ?_, ?_, ?_, hs.size, hs.regular, hs.constraints⟩
  · rw [← e3', ← h, e3]; exact hs.nests
  · rw [← e2', ← h, e2]; exact hs.shapes
  · rw [← e1', ← h, e1]; exact hs.intercepts
  · rw [← h]; exact hs.index

private lemma store_congr (sf : ℝ → ℝ) (r : FitResults) (s s' : FitAttrs)
    (h : addMixingNames s.names = addMixingNames s'.names)
    (hs : (storeFitResults sf r s).2 = none) :
    storeFitResults sf r s' = storeFitResults sf r s := by
  have h1 := (store_fit_iff sf r s).mp hs
  obtain ⟨ls, hl, e⟩ := store_ok sf r s h1
  obtain ⟨ls', hl', e'⟩ := store_ok sf r s' (storable_congr h h1)
  rw [h] at hl e
  rw [hl] at hl'
  cases hl'
  rw [e, e']

/-- What does not enter the inference can be exchanged: the probabilities and what is computed from them, and what the
optimiser said. -/
lemma store_exchange (sf : ℝ → ℝ) (r : FitResults) (s : FitAttrs) (h : (storeFitResults sf r s).2 = none)
    {cp lp rs ic : List (List ℝ)} (hlen : cp.length = r.chosenProbs.length) (su : Bool) (me : String) :
    storeFitResults sf { r with
        chosenProbs := cp, longProbs := lp, residuals := rs, indChi := ic, success := su, message := me } s =
      ({ (storeFitResults sf r s).1 with
          fittedProbs := some cp, longFittedProbs := some lp, longResiduals := some rs, indChiSquareds := some ic,
          chiSquare := some (ic.map List.sum).sum, success := some su, message := some me,
          fitSummary := (storeFitResults sf r s).1.fitSummary.map fun y => { y with message := me } }, none) := by
  have h1 := (store_fit_iff sf r s).mp h
  obtain ⟨ls, hl, e⟩ := store_ok sf r s h1
  obtain ⟨ls', hl', e'⟩ := store_ok sf { r with
    chosenProbs := cp, longProbs := lp, residuals := rs, indChi := ic, success := su, message := me } s ⟨h1.nests, h1.shapes, h1.intercepts, h1.index, h1.size, h1.regular, h1.constraints⟩
  obtain rfl : ls = ls' := by
    have := hl.symm.trans hl'
    exact Except.ok.inj this
  rw [e, e']
  simp only [finalAttrs, coreAttrs, hlen, Option.map_some]
  rfl

/-- The attributes that hold the results as they are. -/
lemma store_holds (sf : ℝ → ℝ) (r : FitResults) (s : FitAttrs) (h : (storeFitResults sf r s).2 = none) :
    let t := (storeFitResults sf r s).1
    let N := allNames r (addMixingNames s.names)
    t.params = some ⟨N, allParams r⟩ ∧ t.gradient = some ⟨N, List.ofFn r.gradient⟩ ∧
    t.hessian = some ⟨N, List.ofFn fun i => List.ofFn (r.hessian i)⟩ ∧
    t.fisher = some ⟨N, List.ofFn fun i => List.ofFn (r.fisher i)⟩ ∧ t.logLik = some r.finalLL ∧
    t.nullLL = some r.nullLL ∧ t.rhoSq = some r.rhoSq ∧ t.rhoBarSq = some r.rhoBarSq ∧
    t.nobs = some r.chosenProbs.length ∧ t.fittedProbs = some r.chosenProbs ∧ t.longFittedProbs = some r.longProbs ∧
    t.longResiduals = some r.residuals ∧ t.indChiSquareds = some r.indChi ∧
    t.chiSquare = some (r.indChi.map List.sum).sum := by
  obtain ⟨ls, hl, e⟩ := store_ok sf r s ((store_fit_iff sf r s).mp h)
  rw [e]
  exact ⟨rfl, rfl, rfl, rfl, rfl, rfl, rfl, rfl, rfl, rfl, rfl, rfl, rfl, rfl⟩

/-- C90.  Nothing of what was stored before survives a successful fit: two model objects with the
same names end up with the same attributes, all of them, whatever earlier fits left on them. -/
theorem store_fit_no_stale (sf : ℝ → ℝ) (r : FitResults) (s s' : FitAttrs)
    (h : s.names = s'.names) (hs : (storeFitResults sf r s).2 = none) :
    storeFitResults sf r s' = storeFitResults sf r s :=
  store_congr sf r s s' (by rw [h]) hs

/-- Steps that leave an attribute alone. -/
private def Keeps {X : Type} (φ : FitAttrs → X) (f : Step) : Prop := ∀ s s', f s = .ok s' → φ s' = φ s

/-- The names, and the attributes written at the very beginning and at the very end. -/
private def outer (s : FitAttrs) :=
  (s.names, (s.logLik, s.fittedProbs, s.longFittedProbs, s.longResiduals, s.indChiSquareds,
    s.chiSquare, s.success, s.message, s.rhoSq, s.rhoBarSq, s.nullLL),
    (s.summary, s.fitSummary, s.nobs, s.dfModel, s.dfResid, s.llf, s.bse, s.aic, s.bic))

private lemma runSteps_keeps {X : Type} (φ : FitAttrs → X) (fs : List Step)
    (h : ∀ f ∈ fs, Keeps φ f) (s : FitAttrs) : φ (runSteps fs s).1 = φ s := by
  induction fs generalizing s with
  | nil => rfl
  | cons f fs ih =>
    simp only [runSteps]
    cases hf : f s with
    | error e => rfl
    | ok s' =>
      simp only
      rw [ih (fun g hg => h g (by simp [hg])) s', h f (by simp) s s' hf]

private lemma keeps_bind {α : Type} (x : Except Err α) (g : FitAttrs → α → FitAttrs)
    (hg : ∀ s a, outer (g s a) = outer s) (s s' : FitAttrs)
    (h : (do let a ← x; return g s a) = Except.ok s') : outer s' = outer s := by
  cases x with
  | error e => simp [bind, Except.bind] at h
  | ok a =>
    simp only [bind, Except.bind, pure, Except.pure, Except.ok.injEq] at h
    rw [← h, hg]

private lemma update_names : ∀ upd ∈ constrainedAttrs, ∀ f s, outer (upd f s) = outer s := by
  intro upd h
  simp only [constrainedAttrs, List.mem_cons, List.not_mem_nil, or_false] at h
  rcases h with rfl | rfl | rfl | rfl | rfl | rfl <;> exact fun f s => rfl

private lemma firstSteps_keep (sf : ℝ → ℝ) (r : FitResults) (N : List String) :
    ∀ f ∈ firstSteps sf r N ++ constrainSteps r, Keeps outer f := by
  intro f hf
  simp only [firstSteps, List.cons_append, List.nil_append, List.mem_cons] at hf
  rcases hf with rfl | rfl | rfl | rfl | rfl | rfl | rfl | rfl | rfl | rfl | rfl | rfl | rfl | rfl |
    rfl | rfl | hf
  · exact fun s s' h => keeps_bind _ (fun s x => { s with intercepts := x }) (fun _ _ => rfl) s s' h
  · exact fun s s' h => keeps_bind _ (fun s x => { s with shapes := x }) (fun _ _ => rfl) s s' h
  · exact fun s s' h => keeps_bind _ (fun s x => { s with nests := x }) (fun _ _ => rfl) s s' h
  · exact fun s s' h => keeps_bind _ (fun s x => { s with coefs := some x }) (fun _ _ => rfl) s s' h
  · exact fun s s' h =>
      keeps_bind _ (fun s x => { s with gradient := some x }) (fun _ _ => rfl) s s' h
  · exact fun s s' h =>
      keeps_bind _ (fun s x => { s with hessian := some x }) (fun _ _ => rfl) s s' h
  · intro s s' h
    unfold storeCov at h
    split_ifs at h
    exact keeps_bind _ (fun s x => { s with cov := some x }) (fun _ _ => rfl) s s' h
  · exact fun s s' h => keeps_bind _ (fun s x => { s with params := some x }) (fun _ _ => rfl) s s' h
  · intro s s' h
    unfold storeStdErrs at h
    split at h
    · simp at h
    · exact keeps_bind _ (fun s x => { s with stdErrs := some x }) (fun _ _ => rfl) s s' h
  · intro s s' h
    unfold storeTvalues at h
    split at h
    · cases h; rfl
    · simp at h
  · intro s s' h
    unfold storePvalues at h
    split at h
    · simp at h
    · exact keeps_bind _ (fun s x => { s with pvalues := some x }) (fun _ _ => rfl) s s' h
  · exact fun s s' h => keeps_bind _ (fun s x => { s with fisher := some x }) (fun _ _ => rfl) s s' h
  · exact fun s s' h =>
      keeps_bind _ (fun s x => { s with robustCov := some x }) (fun _ _ => rfl) s s' h
  · intro s s' h
    unfold storeRobustStdErrs at h
    split at h
    · simp at h
    · exact keeps_bind _ (fun s x => { s with robustStdErrs := some x }) (fun _ _ => rfl) s s' h
  · intro s s' h
    unfold storeRobustT at h
    split at h
    · cases h; rfl
    · simp at h
  · intro s s' h
    unfold storeRobustP at h
    split at h
    · simp at h
    · exact keeps_bind _ (fun s x => { s with robustPVals := some x }) (fun _ _ => rfl) s s' h
  · intro s s' h
    unfold constrainSteps at hf
    split at hf
    · simp at hf
    · obtain ⟨upd, hu, hm⟩ := List.mem_flatMap.mp hf
      obtain ⟨pos, _, rfl⟩ := List.mem_map.mp hm
      unfold constrainOne at h
      split at h
      · simp at h
      · exact keeps_bind _ (fun s x => upd (fun y => y.setNaN x) s)
          (fun s a => update_names upd hu _ s) s s' h

private lemma storeSteps_names (sf : ℝ → ℝ) (r : FitResults) (N : List String) :
    ∀ f ∈ storeSteps sf r N, Keeps FitAttrs.names f := by
  intro f hf
  have hsplit : storeSteps sf r N = (firstSteps sf r N ++ constrainSteps r) ++
      [storeSummary, recordValues, storeFitSummary] := by simp [storeSteps, firstSteps]
  rw [hsplit, List.mem_append] at hf
  rcases hf with hf | hf
  · exact fun s s' h => congrArg Prod.fst (firstSteps_keep sf r N f hf s s' h)
  simp only [List.mem_cons, List.not_mem_nil, or_false] at hf
  rcases hf with rfl | rfl | rfl
  · intro s s' h
    unfold storeSummary at h
    split at h
    · cases h; rfl
    · simp at h
  · intro s s' h
    unfold recordValues at h
    split at h
    · cases h; rfl
    · simp at h
  · intro s s' h
    unfold storeFitSummary at h
    split at h
    · cases h; rfl
    · simp at h

lemma store_names (sf : ℝ → ℝ) (r : FitResults) (s : FitAttrs) :
    (storeFitResults sf r s).1.names = addMixingNames s.names := by
  simp only [storeFitResults, runSteps, storeBasic, storeMixingNames]
  rw [runSteps_keeps FitAttrs.names _ (storeSteps_names sf r _)]

lemma fitCalls_names (sf : ℝ → ℝ) (cs : List FitCall) (s : FitState) :
    addMixingNames (fitCalls sf cs s).attrs.names = addMixingNames s.attrs.names := by
  induction cs generalizing s with
  | nil => rfl
  | cons c cs ih =>
    simp only [fitCalls]
    rw [ih]
    unfold fitCall
    cases c.outcome with
    | failed e => rfl
    | justPoint => rfl
    | results r => simp [store_names, addMixingNames_idempotent]

lemma fitCalls_append (sf : ℝ → ℝ) (cs ds : List FitCall) (s : FitState) :
    fitCalls sf (cs ++ ds) s = fitCalls sf ds (fitCalls sf cs s) := by
  induction cs generalizing s with
  | nil => rfl
  | cons c cs ih => exact ih _

lemma fitCalls_quiet (sf : ℝ → ℝ) (cs : List FitCall)
    (h : ∀ c ∈ cs, ∀ r, c.outcome ≠ .results r) (s : FitState) :
    (fitCalls sf cs s).attrs = s.attrs := by
  induction cs generalizing s with
  | nil => rfl
  | cons c cs ih =>
    simp only [fitCalls]
    rw [ih fun d hd => h d (by simp [hd])]
    have := h c (by simp)
    unfold fitCall
    cases hc : c.outcome with
    | failed e => rfl
    | justPoint => rfl
    | results r => exact absurd hc (this r)

/-- C90, for histories.  Take any history of calls of `fit_mle` - successful ones, failed ones,
`just_point` ones - on a model object, then a call that stores its results without an exception,
then any number of calls that store nothing.  Every result attribute of the object is what this one
call would have left on the object as it was before the history. -/
theorem fits_latest (sf : ℝ → ℝ) (before after : List FitCall) (c : FitCall) (r : FitResults)
    (s : FitState) (hc : c.outcome = .results r)
    (hok : (fitCall sf c (fitCalls sf before s)).2 = none)
    (hafter : ∀ d ∈ after, ∀ r', d.outcome ≠ .results r') :
    (fitCalls sf (before ++ c :: after) s).attrs = (storeFitResults sf r s.attrs).1 ∧
      (storeFitResults sf r s.attrs).2 = none := by
  rw [fitCalls_append]
  simp only [fitCalls]
  rw [fitCalls_quiet sf after hafter]
  simp only [fitCall, hc] at hok ⊢
  have := store_congr sf r (fitCalls sf before s).attrs s.attrs (fitCalls_names sf before s) hok
  rw [this]
  exact ⟨rfl, hok⟩

/-! ## What the attributes say -/

private lemma wipe_adjust {n : ℕ} (names : Fin n → String) (cs : List ℤ) (ls : List String)
    (h : cs.mapM (pyGet (List.ofFn names)) = .ok ls) (x : Fin n → Option ℝ) :
    ∃ y, adjustSeries names x cs = .ok y ∧
      wipe ls ⟨List.ofFn names, List.ofFn x⟩ = ⟨List.ofFn names, List.ofFn y⟩ := by
  induction cs generalizing ls x with
  | nil =>
    simp only [List.mapM_nil, pure, Except.pure, Except.ok.injEq] at h
    subst h
    exact ⟨x, rfl, rfl⟩
  | cons c cs ih =>
    rw [List.mapM_cons] at h
    cases hc : pyGet (List.ofFn names) c with
    | error e => simp [hc, bind, Except.bind] at h
    | ok l =>
      cases hr : cs.mapM (pyGet (List.ofFn names)) with
      | error e => simp [hc, hr, bind, Except.bind] at h
      | ok ls' =>
        simp only [hc, hr, bind, Except.bind, pure, Except.pure, Except.ok.injEq] at h
        subst h
        obtain ⟨y, hy, hw⟩ := ih ls' hr (setNaN names l x)
        refine ⟨y, by simp [adjustSeries, hc, bind, Except.bind, hy], ?_⟩
        rw [← hw]
        simp only [wipe, List.foldl_cons]
        congr 1
        simp only [Series.setNaN, Series.mk.injEq, true_and]
        apply List.ext_getElem
        · simp
        · intro i h1 h2
          simp [setNaN]

private lemma zipWith_ofFn {n : ℕ} {α β γ : Type} (f : α → β → γ) (a : Fin n → α) (b : Fin n → β) :
    List.zipWith f (List.ofFn a) (List.ofFn b) = List.ofFn fun i => f (a i) (b i) := by
  apply List.ext_getElem
  · simp
  · intro i h1 h2; simp

/-- C90, consistency.  After a successful fit that estimated the vector `x`, the stored parameters
are `x` under distinct positions of one list of labels; standard errors, t-values and p-values are
those computed from the stored Hessian and Fisher information at `x` and adjusted for the
constraints; the summary table holds exactly these seven columns under the same labels; the number
of observations, of parameters and the residual degrees of freedom, AIC, BIC and the fit summary
belong to the stored log-likelihood, probabilities and parameters. -/
theorem store_fit_consistent (sf : ℝ → ℝ) (r : FitResults) (s t : FitAttrs)
    (h : storeFitResults sf r s = (t, none)) (x : Fin r.n → ℝ)
    (hx : r.split.nests.getD [] ++ (r.split.shapes.getD [] ++ (r.split.intercepts.getD [] ++
      r.split.index)) = List.ofFn x) :
    ∃ (names : Fin r.n → String) (inf inf' : Inference r.n),
      storeInference sf x r.hessian r.fisher = .ok inf ∧
      adjustInference names r.constrained inf = .ok inf' ∧
      t.params = some ⟨List.ofFn names, List.ofFn x⟩ ∧
      t.stdErrs = some ⟨List.ofFn names, List.ofFn inf'.stdErrs⟩ ∧
      t.tvalues = some ⟨List.ofFn names, List.ofFn inf'.tvalues⟩ ∧
      t.pvalues = some ⟨List.ofFn names, List.ofFn inf'.pvalues⟩ ∧
      t.robustStdErrs = some ⟨List.ofFn names, List.ofFn inf'.robustStdErrs⟩ ∧
      t.robustTStats = some ⟨List.ofFn names, List.ofFn inf'.robustTStats⟩ ∧
      t.robustPVals = some ⟨List.ofFn names, List.ofFn inf'.robustPVals⟩ ∧
      t.bse = t.stdErrs ∧
      t.gradient = some ⟨List.ofFn names, List.ofFn r.gradient⟩ ∧
      t.hessian = some ⟨List.ofFn names, List.ofFn fun i => List.ofFn (r.hessian i)⟩ ∧
      t.fisher = some ⟨List.ofFn names, List.ofFn fun i => List.ofFn (r.fisher i)⟩ ∧
      t.cov = some ⟨List.ofFn names, List.ofFn fun i => List.ofFn (inf'.cov i)⟩ ∧
      t.robustCov = some ⟨List.ofFn names, List.ofFn fun i => List.ofFn (inf'.robustCov i)⟩ ∧
      t.summary = some ⟨List.ofFn names,
        [("parameters", List.ofFn fun i => some (x i)), ("std_err", List.ofFn inf'.stdErrs),
         ("t_stats", List.ofFn inf'.tvalues), ("p_values", List.ofFn inf'.pvalues),
         ("robust_std_err", List.ofFn inf'.robustStdErrs),
         ("robust_t_stats", List.ofFn inf'.robustTStats),
         ("robust_p_values", List.ofFn inf'.robustPVals)]⟩ ∧
      t.logLik = some r.finalLL ∧ t.llf = t.logLik ∧ t.nullLL = some r.nullLL ∧
      t.fittedProbs = some r.chosenProbs ∧ t.nobs = some r.chosenProbs.length ∧
      t.dfModel = some r.n ∧ t.dfResid = some ((r.chosenProbs.length : ℤ) - r.n) ∧
      t.aic = some (2 * r.n - 2 * r.finalLL) ∧
      t.bic = some (r.n * Real.log r.chosenProbs.length - 2 * r.finalLL) ∧
      t.fitSummary = some ⟨r.n, r.chosenProbs.length, r.nullLL, r.finalLL, r.rhoSq, r.rhoBarSq,
        r.message⟩ ∧
      t.rhoSq = some r.rhoSq ∧ t.rhoBarSq = some r.rhoBarSq ∧ t.success = some r.success ∧
      t.message = some r.message ∧ t.longFittedProbs = some r.longProbs ∧
      t.longResiduals = some r.residuals ∧ t.indChiSquareds = some r.indChi ∧
      t.chiSquare = some (r.indChi.map List.sum).sum ∧
      t.coefs.map Series.values = some r.split.index ∧
      t.intercepts.map Series.values = r.split.intercepts ∧
      t.shapes.map Series.values = r.split.shapes ∧
      t.nests.map Series.values = r.split.nests := by
  have hs := (store_fit_iff sf r s).mp (by rw [h])
  obtain ⟨ls, hl, e⟩ := store_ok sf r s hs
  rw [h] at e
  obtain rfl : t = _ := (Prod.mk.inj e).1
  obtain ⟨hN, -⟩ := allNames_length hs
  have hp : allParams r = List.ofFn x := hx
  obtain ⟨names, hnames⟩ : ∃ names : Fin r.n → String,
      allNames r (addMixingNames s.names) = List.ofFn names :=
    ⟨fun i => (allNames r (addMixingNames s.names))[i.1]'(by rw [hN]; exact i.2), by
      apply List.ext_getElem
      · simp [hN]
      · intro i h1 h2; simp⟩
  have hinf : ∃ inf, storeInference sf x r.hessian r.fisher = .ok inf := by
    unfold storeInference
    rw [if_neg (not_not.mpr hs.regular)]
    exact ⟨_, rfl⟩
  obtain ⟨inf, hinf⟩ := hinf
  have hwipe : ∀ y : Fin r.n → Option ℝ, ∃ z, (match r.constrained with
      | none => Except.ok y | some cs => adjustSeries names y cs) = .ok z ∧
      wipe ls ⟨List.ofFn names, List.ofFn y⟩ = ⟨List.ofFn names, List.ofFn z⟩ := by
    intro y
    rw [hnames] at hl
    unfold wiped at hl
    cases hc : r.constrained with
    | none =>
      simp only [hc, Except.ok.injEq] at hl
      subst hl
      exact ⟨y, rfl, rfl⟩
    | some cs =>
      simp only [hc] at hl
      exact wipe_adjust names cs ls hl y
  obtain ⟨z1, a1, w1⟩ := hwipe inf.stdErrs
  obtain ⟨z2, a2, w2⟩ := hwipe inf.tvalues
  obtain ⟨z3, a3, w3⟩ := hwipe inf.pvalues
  obtain ⟨z4, a4, w4⟩ := hwipe inf.robustStdErrs
  obtain ⟨z5, a5, w5⟩ := hwipe inf.robustTStats
  obtain ⟨z6, a6, w6⟩ := hwipe inf.robustPVals
  have hadj : adjustInference names r.constrained inf = .ok { inf with
      stdErrs := z1, tvalues := z2, pvalues := z3, robustStdErrs := z4, robustTStats := z5,
      robustPVals := z6 } := by
    unfold adjustInference
    cases hc : r.constrained with
    | none =>
      simp only [hc, Except.ok.injEq] at a1 a2 a3 a4 a5 a6
      subst a1 a2 a3 a4 a5 a6
      rfl
    | some cs =>
      simp only [hc] at a1 a2 a3 a4 a5 a6
      simp only [a1, a2, a3, a4, a5, a6, bind, Except.bind, pure, Except.pure]
  refine ⟨names, inf, _, hinf, hadj, ?_⟩
  unfold storeInference at hinf
  simp only [hs.regular, not_true_eq_false, if_false, Except.ok.injEq] at hinf
  subst hinf
  simp only at w1 w2 w3 w4 w5 w6
  simp only [finalAttrs, coreAttrs, hnames, hp, zipWith_ofFn, List.map_ofFn, Function.comp_def,
    Option.map_some, w1, w2, w3, w4, w5, w6, Option.getD_some, List.length_ofFn, computeAIC,
    computeBIC, true_and]
  have hid : ∀ (o : Option (List ℝ)) (f : List ℝ → List String),
      (o.map fun v => Series.mk (f v) v).map Series.values = o := by
    intro o f; cases o <;> rfl
  refine ⟨by congr 1; ring, by congr 1; ring, ?_, ?_, ?_⟩ <;> exact hid _ _

/-- After a successful fit the stored parameters carry the labels of the model, in the order nests, shapes,
intercepts, index coefficients. -/
theorem store_fit_labels (sf : ℝ → ℝ) (r : FitResults) (s t : FitAttrs)
    (h : storeFitResults sf r s = (t, none)) :
    t.params.map Series.index = some (allNames r (addMixingNames s.names)) := by
  have hs := (store_fit_iff sf r s).mp (by rw [h])
  obtain ⟨ls, hl, e⟩ := store_ok sf r s hs
  rw [h] at e
  obtain rfl : t = _ := (Prod.mk.inj e).1
  rfl

/-! ## Failed fits -/

/-- Whenever `store_fit_results` raises, the model object is left with a mixture: log-likelihoods,
probabilities, residuals, chi-squares and rho-squares are those of the failed fit, while the
summary table, the fit summary, the number of observations, AIC and BIC are still those of the fit
before it (or absent). -/
theorem failed_store_mixture (sf : ℝ → ℝ) (r : FitResults) (s t : FitAttrs) (e : Err)
    (h : storeFitResults sf r s = (t, some e)) :
    (t.logLik = some r.finalLL ∧ t.nullLL = some r.nullLL ∧ t.fittedProbs = some r.chosenProbs ∧
      t.longFittedProbs = some r.longProbs ∧ t.longResiduals = some r.residuals ∧
      t.indChiSquareds = some r.indChi ∧ t.chiSquare = some (r.indChi.map List.sum).sum ∧
      t.rhoSq = some r.rhoSq ∧ t.rhoBarSq = some r.rhoBarSq ∧ t.success = some r.success ∧ t.message = some r.message) ∧
    (t.summary = s.summary ∧ t.fitSummary = s.fitSummary ∧ t.nobs = s.nobs ∧
      t.dfModel = s.dfModel ∧ t.dfResid = s.dfResid ∧ t.llf = s.llf ∧ t.bse = s.bse ∧
      t.aic = s.aic ∧ t.bic = s.bic) := by
  have hbad : ¬ Storable s.names r := by
    intro hs
    have := (store_fit_iff sf r s).mpr hs
    simp [h] at this
  obtain ⟨t', e', h1, h2⟩ := store_bad' sf r s hbad
  rw [h] at h1
  obtain ⟨rfl, -⟩ := Prod.mk.inj h1
  simp only [List.cons_append, runSteps, storeBasic, storeMixingNames] at h2
  have := runSteps_keeps outer _ (firstSteps_keep sf r (allNames r (addMixingNames s.names)))
  have := this { s with
    names := addMixingNames s.names
    logLik := some r.finalLL, fittedProbs := some r.chosenProbs,
    longFittedProbs := some r.longProbs, longResiduals := some r.residuals,
    indChiSquareds := some r.indChi, chiSquare := some (r.indChi.map List.sum).sum,
    success := some r.success, message := some r.message,
    rhoSq := some r.rhoSq, rhoBarSq := some r.rhoBarSq, nullLL := some r.nullLL }
  rw [h2] at this
  simp only [outer, Prod.mk.injEq] at this
  tauto

/-- A singular Hessian - that of a model whose coefficients are not identified, say - makes the
mixture worse: the coefficients of all kinds, the gradient and the Hessian are new, while the
parameters and every inferential result are still those of the fit before. -/
theorem singular_hessian_mixture (sf : ℝ → ℝ) (r r' : FitResults) (s : FitAttrs)
    (hs : Storable s.names r') (hn : r'.n = r.n) (hsplit : r'.split = r.split)
    (hsing : ¬ IsUnit r.hessian.det) :
    ∃ t, storeFitResults sf r s = (t, some .linAlgError) ∧
      t.coefs.map Series.values = some r.split.index ∧
      t.gradient.map Series.values = some (List.ofFn r.gradient) ∧
      t.hessian.map LabelledMatrix.rows = some (List.ofFn fun i => List.ofFn (r.hessian i)) ∧
      t.params = s.params ∧ t.cov = s.cov ∧ t.stdErrs = s.stdErrs ∧ t.tvalues = s.tvalues ∧
      t.pvalues = s.pvalues ∧ t.fisher = s.fisher ∧ t.robustCov = s.robustCov ∧
      t.robustStdErrs = s.robustStdErrs ∧ t.robustTStats = s.robustTStats ∧
      t.robustPVals = s.robustPVals ∧
      t.intercepts.map Series.values = r.split.intercepts ∧
      t.shapes.map Series.values = r.split.shapes ∧ t.nests.map Series.values = r.split.nests := by
  obtain ⟨e1, e2, e3⟩ := attrs_eq s.names
  have hI := hs.intercepts
  have hS := hs.shapes
  have hN := hs.nests
  have hx := hs.index.symm
  rw [hsplit] at hI hS hN hx
  rw [← e1] at hI
  rw [← e2] at hS
  rw [← e3] at hN
  have hlen : r.n = (allNames r (addMixingNames s.names)).length := by
    have := (allNames_length hs).1
    rw [← hn, ← this]
    simp [allNames, hsplit]
  have hg : (List.ofFn r.gradient).length = (allNames r (addMixingNames s.names)).length := by
    simpa using hlen
  refine ⟨{ s with
    names := addMixingNames s.names
    logLik := some r.finalLL, fittedProbs := some r.chosenProbs,
    longFittedProbs := some r.longProbs, longResiduals := some r.residuals,
    indChiSquareds := some r.indChi, chiSquare := some (r.indChi.map List.sum).sum,
    success := some r.success, message := some r.message,
    rhoSq := some r.rhoSq, rhoBarSq := some r.rhoBarSq, nullLL := some r.nullLL
    intercepts := r.split.intercepts.map fun v =>
      ⟨optionalNames (addMixingNames s.names).interceptNames "Outside_ASC_" v.length, v⟩
    shapes := r.split.shapes.map fun v =>
      ⟨optionalNames (addMixingNames s.names).shapeNames "Shape_" v.length, v⟩
    nests := r.split.nests.map fun v =>
      ⟨optionalNames (addMixingNames s.names).nestNames "Nest_Param_" v.length, v⟩
    coefs := some ⟨(addMixingNames s.names).indVarNames, r.split.index⟩
    gradient := some ⟨allNames r (addMixingNames s.names), List.ofFn r.gradient⟩
    hessian := some ⟨allNames r (addMixingNames s.names),
      List.ofFn fun i => List.ofFn (r.hessian i)⟩ }, ?_, rfl, rfl, rfl, rfl, rfl, rfl, rfl, rfl,
    rfl, rfl, rfl, rfl, rfl, ?_, ?_, ?_⟩
  rotate_left
  · cases r.split.intercepts <;> rfl
  · cases r.split.shapes <;> rfl
  · cases r.split.nests <;> rfl
  simp only [storeFitResults, storeSteps, List.cons_append, runSteps, storeBasic, storeMixingNames,
    storeIntercepts, opt_ok hI, storeShapes, opt_ok hS, storeNests, opt_ok hN, storeCoefs,
    mk_ok hx, storeGradient, mk_ok hg, storeHessian, lab_ok hlen, storeCov, hsing,
    not_false_eq_true, if_true, bind, Except.bind, pure, Except.pure]

/-! ## Concrete histories -/

/-- Results of a fit with one coefficient `b`, log-likelihood `ll` and Hessian `h`, for two
observations. -/
def exResults (ll b h : ℝ) (cs : Option (List ℤ)) : FitResults where
  n := 1
  split := ⟨none, none, none, [b]⟩
  gradient := fun _ => 0
  hessian := Matrix.of fun _ _ => h
  fisher := Matrix.of fun _ _ => 1
  constrained := cs
  finalLL := ll
  nullLL := -3
  rhoSq := 0
  rhoBarSq := 0
  success := true
  message := "done"
  chosenProbs := [[1/2], [1/2]]
  longProbs := [[1/2], [1/2], [1/2], [1/2]]
  residuals := [[1/2], [-1/2], [1/2], [-1/2]]
  indChi := [[1], [1]]

/-- A model object with one design column that has not been fitted. -/
def exFresh : FitState := ⟨none, { names := ⟨["time"], none, none, none, none⟩ }⟩

lemma exStorable (ll b h : ℝ) (hh : h ≠ 0) (cs : Option (List ℤ))
    (hc : cs = none ∨ cs = some [-1]) :
    Storable exFresh.attrs.names (exResults ll b h cs) := by
  refine ⟨by simp [exResults], by simp [exResults], by simp [exResults],
    by simp [exResults, exFresh, addMixingNames], by simp [exResults], ?_, ?_⟩
  · show IsUnit (Matrix.det (Matrix.of fun _ _ : Fin 1 => h))
    rw [Matrix.det_unique]; simpa using hh
  · rintro ds hd pos hp
    have hd' : cs = some ds := hd
    rcases hc with rfl | rfl
    · simp at hd'
    · simp only [Option.some.injEq] at hd'
      subst hd'
      simp only [List.mem_singleton] at hp
      subst hp
      simp [exResults]

/-- Non-vacuity of `fits_latest`: a fit, a fit that fails on a singular Hessian, a fit with a
constrained parameter that succeeds, then a `just_point` call. -/
example (sf : ℝ → ℝ) :
    (fitCall sf ⟨none, .results (exResults (-1) 4 (-2) (some [-1]))⟩
      (fitCalls sf [⟨none, .results (exResults (-2) 1 (-1) none)⟩,
        ⟨some 1, .results (exResults (-2) 5 0 none)⟩] exFresh)).2 = none ∧
    ∀ d ∈ [FitCall.mk (some 3) .justPoint], ∀ r', d.outcome ≠ .results r' := by
  refine ⟨?_, by simp⟩
  simp only [fitCall]
  rw [store_fit_iff]
  exact storable_congr (fitCalls_names sf _ exFresh).symm
    (exStorable (-1) 4 (-2) (by norm_num) _ (Or.inr rfl))

/-- C91 is false of the code.  After a first fit that succeeds (coefficient 1, log-likelihood -2)
and a second one that raises on a singular Hessian (coefficient 5, log-likelihood -1.5), the model
object reports the log-likelihood and the index coefficient of the second next to the parameters
and the fit summary of the first. -/
theorem fits_mixture (sf : ℝ → ℝ) :
    ∃ t, fitCalls sf [⟨none, .results (exResults (-2) 1 (-1) none)⟩,
        ⟨none, .results (exResults (-3/2) 5 0 none)⟩] exFresh = t ∧
      t.attrs.logLik = some (-3/2) ∧ t.attrs.coefs.map Series.values = some [5] ∧
      t.attrs.params.map Series.values = some [1] ∧
      t.attrs.fitSummary.map FitSummary.finalLL = some (-2) ∧ t.attrs.llf = some (-2) := by
  refine ⟨_, rfl, ?_⟩
  have h1 := exStorable (-2) 1 (-1) (by norm_num) none (Or.inl rfl)
  have e0 := (store_fit_iff sf (exResults (-2) 1 (-1) none) exFresh.attrs).mpr h1
  obtain ⟨names, inf, inf', -, -, hp, -, -, -, -, -, -, -, -, -, -, -, -, -, hll, hllf, -, -, -, -,
    -, -, -, hfs, -⟩ := store_fit_consistent sf (exResults (-2) 1 (-1) none) exFresh.attrs _
      (Prod.ext rfl e0) (fun _ => 1) (by simp [exResults])
  have h2 : Storable (storeFitResults sf (exResults (-2) 1 (-1) none) exFresh.attrs).1.names
      (exResults (-3/2) 5 (-1) none) :=
    storable_congr (by rw [store_names, addMixingNames_idempotent])
      (exStorable (-3/2) 5 (-1) (by norm_num) none (Or.inl rfl))
  obtain ⟨t, ht, hc, -, -, hpar, -⟩ := singular_hessian_mixture sf (exResults (-3/2) 5 0 none)
    (exResults (-3/2) 5 (-1) none) _ h2 rfl rfl (by
      show ¬ IsUnit (Matrix.det (Matrix.of fun _ _ : Fin 1 => (0 : ℝ)))
      rw [Matrix.det_unique]; simp)
  obtain ⟨⟨hl, -⟩, -, hf, -, -, -, hlf, -⟩ := failed_store_mixture sf _ _ _ _ ht
  simp only [fitCalls, fitCall, ht]
  refine ⟨hl, hc, ?_, ?_, ?_⟩
  · rw [hpar, hp]; simp [exResults]
  · rw [hf, hfs]; rfl
  · rw [hlf, hllf, hll]; rfl

/-- The `ridge_param` attribute does not belong to the stored results: a `just_point` call, which
stores nothing, still overwrites it. -/
theorem ridge_param_not_of_results (sf : ℝ → ℝ) (r : FitResults) (s : FitState)
    (ρ ρ' : Option ℝ) :
    (fitCalls sf [⟨ρ, .results r⟩, ⟨ρ', .justPoint⟩] s).attrs = (storeFitResults sf r s.attrs).1 ∧
      (fitCalls sf [⟨ρ, .results r⟩, ⟨ρ', .justPoint⟩] s).ridgeParam = ρ' := ⟨rfl, rfl⟩

/-- `ridge_param` is that of the last call, whatever the call did (also if it raised), after every history. -/
theorem ridge_param_last (sf : ℝ → ℝ) (cs : List FitCall) (c : FitCall) (s : FitState) :
    (fitCalls sf (cs ++ [c]) s).ridgeParam = c.ridge := by
  rw [fitCalls_append]
  simp only [fitCalls]
  unfold fitCall
  cases c.outcome <;> rfl

/-- So a call that fails during the estimation leaves its penalty next to the results of the earlier fit. -/
theorem ridge_param_of_failed (sf : ℝ → ℝ) (r : FitResults) (s : FitState) (ρ ρ' : Option ℝ) (e : Err) :
    (fitCalls sf [⟨ρ, .results r⟩, ⟨ρ', .failed e⟩] s).attrs = (storeFitResults sf r s.attrs).1 ∧
      (fitCalls sf [⟨ρ, .results r⟩, ⟨ρ', .failed e⟩] s).ridgeParam = ρ' := ⟨rfl, rfl⟩

/-! ## The chi-square of a mixed logit fit -/

/-- C54 for a whole mixed logit fit: the reported `chi_square` is the sum of `1/p - 1` over all
observations *and all draws*.  It is not an average over draws. -/
theorem chi_square_sums_draws {R : Type} [Fintype R] {m D : ℕ} {B : Matrix R (Fin m) ℝ}
    {f : R → Fin m} (hB : Indicates B f) {choice : R → ℝ} {c : Fin m → R}
    (hc : OneChoice f choice c) {P : R → Fin D → ℝ} (hpos : ∀ r d, 0 < P r d)
    (hsum : ∀ d o, ∑ r ∈ rowsOf f o, P r d = 1) (sf : ℝ → ℝ) (r : FitResults) (s : FitAttrs)
    (hr : r.indChi = List.ofFn fun o => List.ofFn fun d =>
      individualChiSquares (fitResiduals choice fun i => P i d) (fun i => P i d) B o) :
    (storeFitResults sf r s).1.chiSquare = some (∑ o, ∑ d, (1 / P (c o) d - 1)) := by
  have key : (storeFitResults sf r s).1.chiSquare = some (r.indChi.map List.sum).sum := by
    by_cases hs : Storable s.names r
    · obtain ⟨ls, -, e⟩ := store_ok sf r s hs
      rw [e]; rfl
    · obtain ⟨t, e, h1, -⟩ := store_bad' sf r s hs
      rw [h1]
      exact (failed_store_mixture sf r s t e h1).1.2.2.2.2.2.2.1
  rw [key, hr]
  simp only [List.map_ofFn, Function.comp_def, List.sum_ofFn]
  congr 1
  refine Finset.sum_congr rfl fun o _ => Finset.sum_congr rfl fun d _ => ?_
  exact chi_square_value hB hc (fun i => hpos i d) (hsum d) o

/-- So with draws that do not matter (all standard deviations zero) the reported chi-square of a
mixed logit model is the number of draws times that of the ordinary logit model with the same
probabilities: it can be made as large as one likes by asking for more draws. -/
theorem chi_square_grows_with_draws {R : Type} [Fintype R] {m : ℕ} (D : ℕ)
    {B : Matrix R (Fin m) ℝ} {f : R → Fin m} (hB : Indicates B f) {choice : R → ℝ} {c : Fin m → R}
    (hc : OneChoice f choice c) {p : R → ℝ} (hpos : ∀ r, 0 < p r)
    (hsum : ∀ o, ∑ r ∈ rowsOf f o, p r = 1) (sf : ℝ → ℝ) (r : FitResults) (s : FitAttrs)
    (hr : r.indChi = List.ofFn fun o => List.ofFn fun _ : Fin D =>
      individualChiSquares (fitResiduals choice p) p B o) :
    (storeFitResults sf r s).1.chiSquare = some (D * ∑ o, (1 / p (c o) - 1)) := by
  rw [chi_square_sums_draws hB hc (P := fun r _ => p r) (fun r _ => hpos r) (fun _ => hsum) sf r s
    hr]
  simp only [Finset.sum_const, Finset.card_univ, Fintype.card_fin, nsmul_eq_mul, ← Finset.mul_sum]

end

end Pylogit
