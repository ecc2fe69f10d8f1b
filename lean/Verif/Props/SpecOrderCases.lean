import Verif.Props.SpecOrderBuild
import Verif.Props.SpecOrderFit
import Verif.Props.LikelihoodRatioCases

/-!
# C130: concrete cases
-/

open Matrix

namespace Pylogit

open Spec

noncomputable section

namespace ListingOrder

def exTwo : List (String × SpecVal ℝ) := [("x", .allSame), ("alt", .allSame)]

def exTwo' : List (String × SpecVal ℝ) := [("alt", .allSame), ("x", .allSame)]

def exPair' : List (String × List ℝ) := [("rest", [3]), ("pair", [2, 1])]

/-- Two variables, two nests, and a random coefficient. -/
def exTwoArgs : ModelArgs ℝ :=
  { exLogitArgs with
    specification := encodeAll exTwo, nestSpec := some (encodeNests exPairNests)
    mixingIdCol := some "obs", mixingVars := some ["x"] }

/-- The same in another order. -/
def exTwoArgs' : ModelArgs ℝ :=
  { exTwoArgs with specification := encodeAll exTwo', nestSpec := some (encodeNests exPair') }

def exTurn : Fin exPair'.length ≃ Fin exPairNests.length := (Equiv.swap 0 1 : Fin 2 ≃ Fin 2)

theorem exTurn_relists : RelistsNests exPair' exPairNests exTurn := by
  intro i
  change Fin 2 at i
  fin_cases i
  · exact ⟨rfl, List.Perm.refl ([3] : List ℝ)⟩
  · exact ⟨rfl, List.Perm.swap (1 : ℝ) 2 []⟩

theorem exTwo_same : SameButOrder exTwoArgs exTwoArgs' exTwo exTwo' :=
  ⟨rfl, rfl, List.Perm.swap _ _ _, by simp [exTwo], .inl ⟨rfl, rfl⟩, .inr ⟨_, _, _, rfl, rfl, exTurn_relists⟩, rfl⟩

theorem exTwo_buildable (env : Env ℝ) (henv : env.badCol = fun _ => false) (hint : env.isInt = fun _ => true)
    {cls : ModelType} (hcls : cls = .mnl ∨ cls = .nested ∨ cls = .mixed) :
    Buildable env cls exThreeAlts exTwoArgs := by
  have hcol : exThreeAlts.colList exTwoArgs.altIdCol = [1, 2, 3] := by
    simp [Frame.colList, exThreeAlts, exTwoArgs, exLogitArgs]
  have hadd : addIntercept exTwoArgs.specification exThreeAlts = exThreeAlts := by
    simp [addIntercept, exTwoArgs, encodeAll, exTwo]
  refine ⟨by simp [exTwoArgs, exLogitArgs, exThreeAlts], fun _ => rfl, ?_, ?_, ?_, fun _ => ⟨exPairNests, rfl, ?_⟩, ?_, ?_, ?_⟩
  · rcases hcls with rfl | rfl | rfl <;> simp [UsesOutsideIntercepts]
  · rcases hcls with rfl | rfl | rfl <;> simp
  · rcases hcls with rfl | rfl | rfl <;> simp
  · rw [hcol]
    exact ⟨by simp [exPairNests], by simp [exPairNests], by simp [hint], by simp [exPairNests, List.count_cons],
      by simp [exPairNests]⟩
  · simp [exTwoArgs, encodeAll, exTwo, exThreeAlts]
  · simp [henv]
  · rw [hadd]
    refine ⟨_, design_success env.fmt env.fmtList exThreeAlts exTwo "alt" [1, 2, 3] LR.exThree_facts.1
      (by simp [exThreeAlts]) (by simp [exTwo, exThreeAlts]) (by simp [exTwo, SpecVal.ValidFor])
      (by simp [exTwo, SpecVal.columns]), ?_⟩
    intro _ l hl
    cases hl
    simp [exTwo, SpecVal.columns, ColDesc.name]

/-- Non-vacuity of `construction_ignores_listing_order`: both orders are accepted by three classes. -/
theorem exTwo_built (env : Env ℝ) (henv : env.badCol = fun _ => false) (hint : env.isInt = fun _ => true)
    {cls : ModelType} (hcls : cls = .mnl ∨ cls = .nested ∨ cls = .mixed) :
    ∃ m m', createChoiceModel env (classOf cls) exThreeAlts exTwoArgs = .ok m ∧
      createChoiceModel env (classOf cls) exThreeAlts exTwoArgs' = .ok m' ∧ m.cls = cls ∧ m.data = exThreeAlts ∧
      m.args.altIdCol = "alt" ∧ m.args.obsIdCol = "obs" ∧ m.args.choiceCol = "y" ∧ m.args.interceptRefPos = .none := by
  obtain ⟨m, hm⟩ := (construction_iff env cls exThreeAlts exTwoArgs).2 (exTwo_buildable env henv hint hcls)
  obtain ⟨m', hm'⟩ := (construction_ignores_listing_order exTwo_same).1 ⟨m, hm⟩
  obtain ⟨-, h1, -, h2, h3, h4, h5, -⟩ := (factory_type _ _ _ _).2 m hm
  refine ⟨m, m', hm, hm', ?_, ?_, h2, h3, h4, ?_⟩
  · have e1 := (lookup_class (classOf cls) cls).2 rfl
    have e2 := (lookup_class (classOf cls) m.cls).2 h1
    exact Option.some.inj (e2.symm.trans e1)
  · rw [← (built_own hm).2.1, h5]
    simp [addIntercept, exTwoArgs, encodeAll, exTwo]
  · unfold createChoiceModel at hm
    split at hm
    · cases hm
    rename_i c _
    rw [classInit_iff] at hm
    obtain ⟨-, -, d, -, -, rfl⟩ := initBuild_iff.1 (baseInit_ok.1 hm.2).2
    cases c <;> rfl

end ListingOrder

open ListingOrder

/-- Non-vacuity of `nested_fit_ignores_listing_order`. -/
example (env : Env ℝ) (henv : env.badCol = fun _ => false) (hint : env.isInt = fun _ => true) :
    ∃ m m', createChoiceModel env "Nested Logit" exThreeAlts exTwoArgs = .ok m ∧
      createChoiceModel env "Nested Logit" exThreeAlts exTwoArgs' = .ok m' ∧
      ∃ σ, Relists (specColumns [1, 2, 3] exTwo') (specColumns [1, 2, 3] exTwo) σ ∧
        ∀ (τ : Fin exPairNests.length → ℝ) (β : Fin (specColumns [1, 2, 3] exTwo).length → ℝ),
          fitNestedLogLik m' exPair' (List.ofFn (τ ∘ exTurn) ++ List.ofFn (β ∘ σ)) =
            fitNestedLogLik m exPairNests (List.ofFn τ ++ List.ofFn β) := by
  obtain ⟨m, m', hm, hm', hcls, hd, e1, -⟩ := exTwo_built env henv hint (cls := .nested) (by simp)
  obtain ⟨σ, hσ⟩ := relists_of_perm (specColumns_perm [1, 2, 3] exTwo_same.perm)
  refine ⟨m, m', hm, hm', σ, hσ, fun τ β => ?_⟩
  exact nested_fit_ignores_listing_order exTwo_same.perm rfl rfl rfl rfl rfl (by simp [exPairNests]) (by simp [exPair'])
    exTurn_relists hm hm' hcls (by rw [hd, e1]; exact LR.exThree_facts.1) hσ τ β

/-- Non-vacuity of `mixed_fit_ignores_listing_order`. -/
example (g : Rng) (st : g.State) (env : Env ℝ) (henv : env.badCol = fun _ => false)
    (hint : env.isInt = fun _ => true) :
    ∃ m m', createChoiceModel env "Mixed Logit" exThreeAlts exTwoArgs = .ok m ∧
      createChoiceModel env "Mixed Logit" exThreeAlts exTwoArgs' = .ok m' ∧
      ∃ σ, Relists (specColumns [1, 2, 3] exTwo') (specColumns [1, 2, 3] exTwo) σ ∧
        ∀ (μ : Fin (specColumns [1, 2, 3] exTwo).length → ℝ) (sd : Fin 1 → ℝ),
          fitMixedLogLik g m' (.int (5 : ℕ)) none (some 1) (List.ofFn (μ ∘ σ) ++ List.ofFn sd) st =
            fitMixedLogLik g m (.int (5 : ℕ)) none (some 1) (List.ofFn μ ++ List.ofFn sd) st := by
  obtain ⟨m, m', hm, hm', hcls, hd, e1, e2, e3, -⟩ := exTwo_built env henv hint (cls := .mixed) (by simp)
  refine ⟨m, m', hm, hm', mixed_fit_ignores_listing_order g exTwo_same.perm exTwo_same.distinct rfl rfl rfl
    exTwo_same.names hm hm' ?_ (mixCol := "obs") rfl ?_ (vars := ["x"]) rfl (by simp) ?_ ?_ ?_ (by norm_num)
    (.inl ⟨rfl, rfl⟩) _⟩
  · obtain ⟨⟨-, -, -, q1, q3⟩, -⟩ := built_cols hm
    have h := (built_own hm).1.design
    rw [q1, q3] at h
    obtain ⟨-, rfl, -, hn⟩ := default_names (s := exTwo) (alts := [1, 2, 3])
      (by rw [hd, e1]; exact LR.exThree_facts.1) h
    rw [hn]
    simp [exTwo, SpecVal.columns, ColDesc.name]
  · rw [hd]; simp [exThreeAlts]
  · rw [hd, e1]; exact LR.exThree_facts.1
  · rw [hd]; simp [exThreeAlts]
  · rw [hd, e3]
    intro r
    change Fin 3 at r
    fin_cases r <;> simp [exThreeAlts]

/-- Non-vacuity of `listing_order_columns` and `fit_reports_ignore_listing_order`: fits with ridge penalty 1. -/
example (env : Env ℝ) (henv : env.badCol = fun _ => false) (hint : env.isInt = fun _ => true)
    (label : PyVal ℝ → String) (sf : ℝ → ℝ) :
    ∃ m m' k k' t t', createChoiceModel env "MNL" exThreeAlts exTwoArgs = .ok m ∧
      createChoiceModel env "MNL" exThreeAlts exTwoArgs' = .ok m' ∧
      HoldsResultsOf label sf m
        (mnlFitCall exGlobal m ⟨⟨some (List.replicate k 0), none, none, none⟩, some 1, none, false⟩) t ∧
      HoldsResultsOf label sf m'
        (mnlFitCall exGlobal m' ⟨⟨some (List.replicate k' 0), none, none, none⟩, some 1, none, false⟩) t' ∧
      ∃ σ, Relists (specColumns [1, 2, 3] exTwo') (specColumns [1, 2, 3] exTwo) σ ∧ SameFitRelisted σ t t' := by
  obtain ⟨m, m', hm, hm', hcls, hd, e1, e2, e3, hi⟩ := exTwo_built env henv hint (cls := .mnl) (by simp)
  have R := relisted exTwo_same.perm rfl rfl rfl hm hm'
  obtain ⟨ha, hc, hasc, hL⟩ := LR.exThree_facts
  have key : ∀ {a : ModelArgs ℝ} {m : ChoiceModel ℝ} {s : List (String × SpecVal ℝ)},
      createChoiceModel env "MNL" exThreeAlts a = .ok m → m.cls = .mnl → m.data = exThreeAlts →
      m.args.altIdCol = "alt" → m.args.obsIdCol = "obs" → m.args.choiceCol = "y" → a.specification = encodeAll s →
      s = exTwo ∨ s = exTwo' → a.names = none → a.altIdCol = "alt" → a.obsIdCol = "obs" → a.choiceCol = "y" →
      m.args.interceptRefPos = .none →
      ∃ k t, HoldsResultsOf label sf m
        (mnlFitCall exGlobal m ⟨⟨some (List.replicate k 0), none, none, none⟩, some 1, none, false⟩) t ∧
        UnclippedFit m.data m.args.altIdCol (specColumns [1, 2, 3] s) t := by
    intro a m s hm hcls hd e1 e2 e3 hs hss hn f1 f2 f3 hi
    obtain ⟨⟨-, -, -, q1, q3⟩, -⟩ := built_cols hm
    obtain ⟨k, t, ht⟩ := LR.exHolds hm (.inl hcls) (q1.trans hs) (by rcases hss with rfl | rfl <;> simp [exTwo, exTwo'])
      (q3.trans hn) (alts := [1, 2, 3]) (by rw [hd, e1]; exact ha) (by simp) (by rw [hd, e2, e3]; exact ⟨_, hc⟩)
      (by rw [hd, e2]; exact hasc) (by rw [hd]; simp [exThreeAlts]) (by simp [hcls]) (by simp [hcls]) label sf
    obtain ⟨L, x, ρ, -, -, h1, -, -, -, h2⟩ := fits_beat_equal_shares (alts := [1, 2, 3]) hm hs (by rw [f1]; exact ha)
      (by simp) (chosen := fun _ => (2 : Fin 3)) (by rw [f2, f3]; exact hc) exGlobal_minimising.1 exGlobal_minimising.2
      rfl ht
    have h3 : (x.map (· ^ 2)).sum ≤ 2 := by
      have := (h2 (by simp)).2
      simp only [Option.getD_some, one_mul, f2, f3] at this
      exact this.trans hL
    rw [LR.mnl_logit hcls hi (by rw [hd]; simp [exThreeAlts])] at ht
    refine ⟨k, t, ht, fun L y hy r => ?_⟩
    rw [hy] at h1
    obtain rfl : y = x := by simpa using h1
    rw [e1]
    revert r
    rw [hd]
    intro r
    have hb : ∀ b ∈ y, |b| ≤ 2 := by
      intro b hb
      have h4 : b ^ 2 ≤ (y.map (· ^ 2)).sum :=
        List.single_le_sum (fun z hz => by obtain ⟨w, -, rfl⟩ := List.mem_map.1 hz; exact sq_nonneg w) _
          (List.mem_map.2 ⟨b, hb, rfl⟩)
      exact abs_le_of_sq_le_sq (by linarith) (by norm_num)
    have hx : |exThreeAlts.val "x" r| ≤ 5 ∧ |exThreeAlts.val "alt" r| ≤ 5 := by
      have h : ∀ r : Fin 3, |(![1, 2, 5] : Fin 3 → ℝ) r| ≤ 5 ∧ |(![1, 2, 3] : Fin 3 → ℝ) r| ≤ 5 := by
        intro r
        fin_cases r <;> norm_num [abs_le]
      exact h _
    have hprod : ∀ {u b : ℝ}, |u| ≤ 5 → |b| ≤ 2 → |u * b| ≤ 10 := by
      intro u b hu hb
      rw [abs_mul]
      nlinarith [abs_nonneg u, abs_nonneg b]
    match y, hb with
    | [], _ => simp [rowIndex]
    | [b], hb =>
      have hb := hb b (by simp)
      rcases hss with rfl | rfl
      · have := hprod hx.1 hb
        simpa [rowIndex, exTwo, specColumns, SpecVal.columns, ColDesc.value] using this.trans_lt (by norm_num)
      · have := hprod hx.2 hb
        simpa [rowIndex, exTwo', specColumns, SpecVal.columns, ColDesc.value] using this.trans_lt (by norm_num)
    | b :: c :: l, hb =>
      have h5 := hb b (by simp)
      have h6 := hb c (by simp)
      rcases hss with rfl | rfl
      · have := (abs_add_le _ _).trans (add_le_add (hprod hx.1 h5) (hprod hx.2 h6))
        simpa [rowIndex, exTwo, specColumns, SpecVal.columns, ColDesc.value] using this.trans_lt (by norm_num)
      · have := (abs_add_le _ _).trans (add_le_add (hprod hx.2 h5) (hprod hx.1 h6))
        simpa [rowIndex, exTwo', specColumns, SpecVal.columns, ColDesc.value] using this.trans_lt (by norm_num)
  have hc' : ∃ chosen, OneChoicePerObs m.data m.args.obsIdCol m.args.choiceCol chosen := by
    rw [hd, e2, e3]
    exact ⟨_, hc⟩
  obtain ⟨chosen, hc'⟩ := hc'
  obtain ⟨k, t, h1, h2⟩ := key hm hcls hd e1 e2 e3 rfl (.inl rfl) rfl rfl rfl rfl hi
  obtain ⟨k', t', h1', h2'⟩ := key hm' (R.cls.trans hcls) (R.data.trans hd) (R.alt.trans e1) (R.obs.trans e2)
    (R.choice.trans e3) rfl (.inr rfl) rfl rfl rfl rfl (R.icptRef.trans hi)
  refine ⟨m, m', k, k', t, t', hm, hm', h1, h1', ?_⟩
  exact fit_reports_ignore_listing_order exTwo_same.perm exTwo_same.distinct rfl rfl rfl exTwo_same.names hm hm' hcls
    (by rw [hd, e1]; exact ha) hc' exGlobal_minimising.1
    exGlobal_minimising.1 exGlobal_minimising.2 exGlobal_minimising.2 label sf (by rfl) (by rfl) (by simp)
    (by rfl) (by rfl) (by rfl) h1 h1' h2 h2'

end

end Pylogit
