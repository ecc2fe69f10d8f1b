import Verif.Props.GradientNorms
import Verif.Props.LikelihoodRatioCases

/-!
# C129: concrete cases
-/

namespace Pylogit

open Spec LR

/-- Non-vacuity of `gradient_norm_of_logit_fit` and `gradient_norms_of_table`: an asymmetric logit model of three
alternatives, fitted with ridge penalty 1 by a global optimiser; the estimates are the only replicate. -/
theorem exThree_gradient_norm (env : Env ℝ) (henv : env.badCol = fun _ => false) :
    ∃ m k r, createChoiceModel env "Asym" exThreeAlts { exLogitArgs with shapeRefPos := .int 0 } = .ok m ∧
      logitFit exGlobal m ⟨⟨some (List.replicate k 0), none, none, none⟩, some 1, none, false⟩ = .ok r ∧
      modelGradientNorms m none "bootstrap" (some (.num 1)) (some [allParams r]) none =
        .ok [Real.sqrt (∑ k, r.gradient k ^ 2)] := by
  obtain ⟨ha, hc, hasc, hL⟩ := exThree_facts
  obtain ⟨m, hm, e1, e2, e3⟩ := exBuilt env henv (ty := "Asym") (cls := .asym) (by decide) (by simp)
    (L := exThreeAlts) rfl ha [("x", .allSame)] (by simp [exThreeAlts]) (by simp [SpecVal.ValidFor])
    (by simp [specColumns, SpecVal.columns])
    (A := { exLogitArgs with shapeRefPos := .int 0 }) (iref := .none) (sref := .int 0) rfl rfl (by simp) (by simp)
  obtain ⟨k, t, before, after, ht, -⟩ := exHolds hm (by simp [e1]) (s := [("x", .allSame)]) (by rw [e3]; rfl)
    (by simp) (by rw [e3]; rfl) (by rw [e2, e3]; exact ha) (by simp)
    (by rw [e2, e3]; exact ⟨_, hc⟩) (by rw [e2, e3]; exact hasc) (by rw [e2]; simp [exThreeAlts])
    (by rw [e3]; exact fun _ => .inl rfl) (by rw [e3]; exact fun _ => ⟨0, rfl, by simp, by simp⟩)
    (fun _ => "") (fun x => x)
  obtain ⟨r, hr⟩ : ∃ r, logitFit exGlobal m ⟨⟨some (List.replicate k 0), none, none, none⟩, some 1, none, false⟩ =
      .ok r := by
    unfold logitFitCall at ht
    cases hf : logitFit exGlobal m ⟨⟨some (List.replicate k 0), none, none, none⟩, some 1, none, false⟩ with
    | error e => simp [hf, fitOutcome, fitCall] at ht
    | ok r => exact ⟨r, rfl⟩
  refine ⟨m, k, r, hm, hr, ?_⟩
  obtain ⟨norms, h1, h2, h3⟩ := gradient_norm_of_logit_fit hm (s := [("x", .allSame)]) (by rw [e3]; rfl)
    (by rw [e2, e3]; exact ha) hr none "bootstrap" (some [allParams r]) none [allParams r] (.inl ⟨rfl, rfl⟩) (by simp)
  refine h1.trans ?_
  have h4 := h3 0 (by simp)
  cases norms with
  | nil => simp at h4
  | cons v l =>
    simp only [List.length_cons, List.length_nil, zero_add, Nat.add_eq_right, List.length_eq_zero_iff] at h2
    simp only [List.getElem?_cons_zero, Option.some.injEq] at h4
    rw [h2, h4]

/-- Non-vacuity of `gradient_norm_of_nested_fit`. -/
theorem exTwins_gradient_norm (env : Env ℝ) (henv : env.badCol = fun _ => false) (hint : env.isInt = fun _ => true) :
    ∃ m r, createChoiceModel env "Nested Logit" exTwins exBothArgs = .ok m ∧
      nestedFit exStaying m exBoth ⟨⟨some [0, 0], none, none, none⟩, some 1, none, false⟩ = .ok r ∧
      modelGradientNorms m none "jackknife" (some (.num 1)) none (some [allParams r]) =
        .ok [Real.sqrt (∑ k, r.gradient k ^ 2)] := by
  obtain ⟨ha, hids⟩ := exFour_ids ![0, 1, 0, 1] ![1, 0, 0, 1]
  obtain ⟨-, hasc⟩ := exFour_facts ![0, 1, 0, 1]
  have hn : (specColumns [(1 : ℝ), 2] [("x", .allSame)]).length = 1 := by simp [specColumns, SpecVal.columns]
  obtain ⟨d, names, hm⟩ := exTwins_built env henv hint
  obtain ⟨r, hr⟩ := (nested_fit_accepts hm rfl (ns := exBoth) rfl (by simp [exBoth]) (s := [("x", .allSame)]) rfl ha
    (solver := exStaying) (fun n f x h => ⟨_, rfl⟩) ⟨⟨some [0, 0], none, none, none⟩, some 1, none, false⟩).2
    ⟨⟨[0, 0], rfl, by simp [hn, exBoth]⟩, hasc, by simp [exTwins, exFour], by simp⟩
  refine ⟨_, r, hm, hr, ?_⟩
  obtain ⟨norms, h1, h2, h3⟩ := gradient_norm_of_nested_fit hm rfl (ns := exBoth) rfl hr none "jackknife" none
    (some [allParams r]) [allParams r] (.inr ⟨rfl, rfl⟩) (by simp)
  refine h1.trans ?_
  have h4 := h3 0 (by simp)
  match norms, h2 with
  | [v], _ =>
    simp only [List.getElem?_cons_zero, Option.some.injEq] at h4
    rw [h4]

/-- Non-vacuity of `gradient_norm_of_mixed_fit`. -/
theorem exPeople_gradient_norm (env : Env ℝ) (henv : env.badCol = fun _ => false) (st : ℕ) :
    ∃ m r X st', createChoiceModel env "Mixed Logit" exPeople exPeopleArgs = .ok m ∧
      mixedFit countingRng exStaying m (exMixedArgs (some 1) none) st = .ok r ∧
      drawnDesign countingRng m m.data m.design (exMixedArgs (some 1) none).numDraws (exMixedArgs (some 1) none).seed st =
        .ok (X, st') ∧
      modelGradientNorms m (some X) "bootstrap" (some (.num 1)) (some [allParams r]) none =
        .ok [Real.sqrt (∑ k, r.gradient k ^ 2)] := by
  obtain ⟨hc, hasc⟩ := exPeople_facts
  obtain ⟨m, hm, f1, f2, f3⟩ := exPeople_model env henv (L := exPeople) rfl exPeople_alts
  have hname : ∀ j (hj : j < ["x"].length), m.indVarNames[(fun _ => 0 : ℕ → ℕ) j]? = some (.str ["x"][j]) ∧
      ∀ i < (fun _ => 0 : ℕ → ℕ) j, m.indVarNames[i]? ≠ some (.str ["x"][j]) := by
    intro j hj
    obtain rfl : j = 0 := by simpa using hj
    simp [f3]
  have hcol : (specColumns [1, 2] [("x", (SpecVal.allSame : SpecVal ℝ))]).length = 1 := by
    simp [specColumns, SpecVal.columns]
  obtain ⟨r, hr⟩ := (mixed_fit_accepts countingRng hm rfl (s := [("x", .allSame)]) (by rw [f1]; rfl) (by simp)
    (by rw [f1]; intro ns h; cases h) (alts := [1, 2]) (by rw [f1, f2]; exact exPeople_alts) hname
    (solver := exStaying) (fun n f x h => ⟨_, rfl⟩) (exMixedArgs (some 1) none) st).2
    ⟨⟨[0, 0], rfl, by simp [hcol]⟩, by simp, ⟨1, one_pos, rfl⟩, ⟨(1 : ℕ), .inr ⟨1, one_pos, rfl, by simp [countingRng]⟩⟩,
      ⟨"person", rfl, by rw [f2]; simp [exPeople]⟩, by rw [f1, f2]; exact hasc, by rw [f2]; simp [exPeople], by
        simp [exMixedArgs]⟩
  obtain ⟨X, st', hX⟩ : ∃ X st', drawnDesign countingRng m m.data m.design (exMixedArgs (some 1) none).numDraws
      (exMixedArgs (some 1) none).seed st = .ok (X, st') := by
    unfold mixedFit at hr
    cases hx : initPlain (exMixedArgs (some 1) none).init with
    | error e => rw [hx] at hr; cases hr
    | ok y =>
      rw [hx] at hr
      cases hd : drawnDesign countingRng m m.data m.design (exMixedArgs (some 1) none).numDraws
        (exMixedArgs (some 1) none).seed st with
      | error e => simp only [hd, bind, Except.bind] at hr; cases hr
      | ok p => exact ⟨p.1, p.2, rfl⟩
  refine ⟨m, r, X, st', hm, hr, hX, ?_⟩
  have hcls : m.cls = .mixed := by
    have h := ((factory_type env _ exPeople exPeopleArgs).2 m hm).2.1
    revert h
    cases m.cls <;> decide
  obtain ⟨norms, h1, h2, h3⟩ := (gradient_norm_of_mixed_fit countingRng hm hcls hr hX).1 "bootstrap"
    (some [allParams r]) none [allParams r] (.inl ⟨rfl, rfl⟩) (by simp)
  refine h1.trans ?_
  have h4 := h3 0 (by simp)
  match norms, h2 with
  | [v], _ =>
    simp only [List.getElem?_cons_zero, Option.some.injEq] at h4
    rw [h4]

end Pylogit
