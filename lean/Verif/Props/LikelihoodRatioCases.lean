import Verif.Props.LikelihoodRatio
import Verif.Props.PredictMixed

/-!
# C125, C126: further concrete cases

Cases that meet the hypotheses of the theorems of `LikelihoodRatio.lean` and `PenalisedFits.lean`; the other cases are
at the end of `LikelihoodRatio.lean`.
-/

open Matrix

namespace Pylogit

open Spec

namespace LR

/-- The two ways to write a fit of a multinomial logit model. -/
theorem mnl_logit {m : ChoiceModel ℝ} (hcls : m.cls = .mnl) (hi : m.args.interceptRefPos = .none)
    (hrows : 0 < m.data.numRows) (solver : Solver) (args : FitArgs) :
    logitFitCall solver m args = mnlFitCall solver m args := by
  have e : logitFit solver m args = mnlFit solver m args := by
    obtain ⟨c, nm, dt, ds, ns, ar, ms⟩ := m
    obtain rfl : c = .mnl := hcls
    unfold logitFit mnlFit
    simp only [dif_pos hrows]
    have e1 : logitObject ⟨.mnl, nm, dt, ds, ns, ar, ms⟩ hrows args.ridge =
        .ok (mnlObject ⟨.mnl, nm, dt, ds, ns, ar, ms⟩ hrows args.ridge) := by
      unfold logitObject; rfl
    have e2 : (ar.interceptRefPos != .none) = false := by rw [show ar.interceptRefPos = _ from hi]; rfl
    rw [e1]
    simp only [e2]
    rfl
  unfold logitFitCall mnlFitCall
  rw [e]

/-- Without a ridge penalty, a multinomial logit of identified columns gets to results and stores them. -/
theorem exIdentified {env : Env ℝ} {ty : String} {df : Frame ℝ} {a : ModelArgs ℝ} {m : ChoiceModel ℝ}
    (hm : createChoiceModel env ty df a = .ok m) (hcls : m.cls = .mnl)
    {s : List (String × SpecVal ℝ)} (hspec : m.args.specification = encodeAll s) (hkeys : (s.map Prod.fst).Nodup)
    (hnm : m.args.names = none) (hi : m.args.interceptRefPos = .none)
    {alts : List ℝ} (ha : AltsOf m.data m.args.altIdCol alts)
    (hc' : ∃ chosen, OneChoicePerObs m.data m.args.obsIdCol m.args.choiceCol chosen)
    (hasc : (m.data.colList m.args.obsIdCol).Pairwise (· ≤ ·)) (hrows : 0 < m.data.numRows)
    (hid : Identified m.data m.args.obsIdCol m.args.altIdCol (specColumns alts s))
    (label : PyVal ℝ → String) (sf : ℝ → ℝ) :
    ∃ k t, HoldsResultsOf label sf m
      (logitFitCall exGlobal m ⟨⟨some (List.replicate k 0), none, none, none⟩, none, none, false⟩) t := by
  obtain ⟨chosen, hc⟩ := hc'
  refine ⟨(specColumns alts s).length, _, [], [], ?_, by simp, rfl⟩
  rw [mnl_logit hcls hi hrows]
  exact (mnl_fit_succeeds_iff hm hcls hspec hkeys (by simp [hnm]) ha hc label sf [] _ rfl (by simp)
    (.inr ⟨by simp, exGlobal_finds⟩)).2 ⟨⟨_, rfl, by simp⟩, hasc, hrows, by simp, .inr hid⟩

theorem exFour_facts (x : Fin 4 → ℝ) : (∃ chosen, OneChoicePerObs (exFour x ![1, 0, 0, 1]) "obs" "y" chosen) ∧
    ((exFour x ![1, 0, 0, 1]).colList "obs").Pairwise (· ≤ ·) := by
  refine ⟨⟨fun o => if o = 1 then (0 : Fin 4) else (3 : Fin 4), ?_, ?_, ?_⟩, by simp [exFour, Frame.colList]⟩ <;>
    intro r <;> change Fin 4 at r <;> fin_cases r <;> simp [exFour]

end LR

open LR in
/-- Non-vacuity of `alternative_specific_fits_better` and of `larger_span_fits_better`, which it rests on: two
observations of two alternatives, with a generic coefficient and with one coefficient per alternative. -/
example (env : Env ℝ) (henv : env.badCol = fun _ => false) (label : PyVal ℝ → String) (sf : ℝ → ℝ) :
    ∃ m₁ m₂ k₁ k₂ t₁ t₂,
      let f := fun m k => logitFitCall exGlobal m ⟨⟨some (List.replicate k 0), none, none, none⟩, none, none, false⟩
      createChoiceModel env "MNL" (exFour ![1, 2, 3, 1] ![1, 0, 0, 1]) exLogitArgs = .ok m₁ ∧
      HoldsResultsOf label sf m₁ (f m₁ k₁) t₁ ∧
      createChoiceModel env "MNL" (exFour ![1, 2, 3, 1] ![1, 0, 0, 1])
        { exLogitArgs with specification := encodeAll [("x", .allDiff)] } = .ok m₂ ∧
      HoldsResultsOf label sf m₂ (f m₂ k₂) t₂ ∧ FitsAtLeastAsWell t₁ t₂ := by
  obtain ⟨ha, -⟩ := exFour_ids ![1, 2, 3, 1] ![1, 0, 0, 1]
  obtain ⟨hc, hasc⟩ := exFour_facts ![1, 2, 3, 1]
  have key : ∀ v : SpecVal ℝ, (v = .allSame ∨ v = .allDiff) →
      Identified (exFour ![1, 2, 3, 1] ![1, 0, 0, 1]) "obs" "alt" (specColumns [1, 2] [("x", v)]) →
      ∃ m k t, createChoiceModel env "MNL" (exFour ![1, 2, 3, 1] ![1, 0, 0, 1])
          { exLogitArgs with specification := encodeAll [("x", v)] } = .ok m ∧ m.cls = .mnl ∧
        HoldsResultsOf label sf m
          (logitFitCall exGlobal m ⟨⟨some (List.replicate k 0), none, none, none⟩, none, none, false⟩) t := by
    intro v hv hid
    obtain ⟨m, hm, e1, e2, e3⟩ := exBuilt env henv (ty := "MNL") (cls := .mnl) (by decide) (by simp)
      (L := exFour ![1, 2, 3, 1] ![1, 0, 0, 1]) rfl ha [("x", v)]
      (by simp [exFour]) (by rcases hv with rfl | rfl <;> simp [SpecVal.ValidFor])
      (by rcases hv with rfl | rfl <;> simp [specColumns, SpecVal.columns])
      (A := { exLogitArgs with specification := encodeAll [("x", v)] }) (iref := .none) (sref := .none) rfl rfl
      (by simp) (by simp)
    obtain ⟨k, t, ht⟩ := exIdentified hm e1 (by rw [e3]) (by simp) (by rw [e3]; rfl) (by rw [e3]; rfl)
      (by rw [e2, e3]; exact ha) (by rw [e2, e3]; exact hc) (by rw [e2, e3]; exact hasc) (by rw [e2]; simp [exFour])
      (by rw [e2, e3]; exact hid) label sf
    exact ⟨m, k, t, hm, e1, ht⟩
  obtain ⟨m₁, k₁, t₁, hm₁, c₁, ht₁⟩ := key .allSame (.inl rfl) (by
    intro v hv
    have hv : ∀ r s : Fin 4, _ := hv
    have h := hv 0 1 (by simp [exFour])
    simp [rowIndex, specColumns, SpecVal.columns, ColDesc.value, exFour] at h
    funext i
    fin_cases i
    exact (fun a (e : a = 2 * a) => by linarith : ∀ a : ℝ, a = 2 * a → a = 0) _ h)
  obtain ⟨m₂, k₂, t₂, hm₂, c₂, ht₂⟩ := key .allDiff (.inr rfl) (by
    intro v hv
    have hv : ∀ r s : Fin 4, _ := hv
    have h := hv 0 1 (by simp [exFour])
    have h' := hv 2 3 (by simp [exFour])
    simp [rowIndex, specColumns, SpecVal.columns, ColDesc.value, exFour] at h h'
    funext i
    change Fin 2 at i
    have key : ∀ a b : ℝ, a = 2 * b → 3 * a = b → a = 0 ∧ b = 0 := fun a b e e' => ⟨by linarith, by linarith⟩
    fin_cases i
    · exact (key _ _ h h').1
    · exact (key _ _ h h').2)
  obtain ⟨g1, g2⟩ := exGlobal_minimising
  obtain ⟨chosen, hc⟩ := hc
  refine ⟨m₁, m₂, k₁, k₂, t₁, t₂, hm₁, ht₁, hm₂, ht₂, ?_⟩
  refine (alternative_specific_fits_better (pre := []) (post := []) (v := "x") hm₁ rfl hm₂ ha (by simp [c₁]) hc g1 g1 g2
    ?_ ?_ ?_ ?_ ht₁ ht₂).1 <;> rfl

namespace LR

theorem exThree_facts : AltsOf exThreeAlts "alt" [1, 2, 3] ∧
    OneChoicePerObs exThreeAlts "obs" "y" (fun _ => (2 : Fin 3)) ∧ (exThreeAlts.colList "obs").Pairwise (· ≤ ·) ∧
    |(⟨exThreeAlts, "obs", "y", []⟩ : LongData).equalShares| ≤ 2 := by
  refine ⟨⟨by norm_num, fun x => ⟨?_, ?_⟩⟩, ⟨?_, ?_, ?_⟩, by simp [exThreeAlts, Frame.colList], ?_⟩
  · intro hx
    simp only [List.mem_cons, List.not_mem_nil, or_false] at hx
    rcases hx with rfl | rfl | rfl
    · exact ⟨(0 : Fin 3), rfl⟩
    · exact ⟨(1 : Fin 3), rfl⟩
    · exact ⟨(2 : Fin 3), rfl⟩
  · rintro ⟨r, rfl⟩
    change Fin 3 at r
    fin_cases r <;> simp [exThreeAlts]
  · intro r; change Fin 3 at r; fin_cases r <;> simp [exThreeAlts]
  · intro r; change Fin 3 at r; fin_cases r <;> simp [exThreeAlts]
  · intro r; change Fin 3 at r; fin_cases r <;> simp [exThreeAlts]
  · have hobs : ∀ r, exThreeAlts.val "obs" r = 1 := by
      intro r
      change Fin 3 at r
      fin_cases r <;> simp [exThreeAlts]
    have e : ∀ r, (⟨exThreeAlts, "obs", "y", []⟩ : LongData).rows (exThreeAlts.val "obs" r) = Finset.univ := by
      intro r
      ext q
      simp [LongData.rows, hobs]
    have hc : (Finset.univ : Finset (Fin exThreeAlts.numRows)).card = 3 := rfl
    have hsum : ∀ p : Fin 3 → ℝ, ∑ r : Fin 3, exThreeAlts.val "y" r * Real.log (p r) = Real.log (p 2) := by
      intro p
      refine (Fin.sum_univ_three _).trans ?_
      simp [exThreeAlts]
    have h1 : (⟨exThreeAlts, "obs", "y", []⟩ : LongData).equalShares = Real.log (1 / 3) := by
      unfold LongData.equalShares
      simp only [e, hc]
      exact hsum fun _ => 1 / ((3 : ℕ) : ℝ)
    rw [h1, one_div, Real.log_inv, abs_neg, abs_of_nonneg (Real.log_nonneg (by norm_num))]
    have := Real.log_le_sub_one_of_pos (show (0 : ℝ) < 3 by norm_num)
    linarith

end LR

open LR in
/-- Non-vacuity of `asym_fits_better`, and of the bound on the estimates in `fits_beat_equal_shares`: fits with ridge
penalty 1 of a multinomial and an asymmetric logit model of three alternatives. -/
example (env : Env ℝ) (henv : env.badCol = fun _ => false) (label : PyVal ℝ → String) (sf : ℝ → ℝ) :
    ∃ m₁ m₂ k₁ k₂ t₁ t₂,
      let f := fun m k => logitFitCall exGlobal m ⟨⟨some (List.replicate k 0), none, none, none⟩, some 1, none, false⟩
      createChoiceModel env "MNL" exThreeAlts exLogitArgs = .ok m₁ ∧ HoldsResultsOf label sf m₁ (f m₁ k₁) t₁ ∧
      createChoiceModel env "Asym" exThreeAlts { exLogitArgs with shapeRefPos := .int 0 } = .ok m₂ ∧
      HoldsResultsOf label sf m₂ (f m₂ k₂) t₂ ∧ FitsAtLeastAsWell t₁ t₂ ∧ RhoAtLeast t₁ t₂ := by
  obtain ⟨ha, hc, hasc, hL⟩ := exThree_facts
  have key : ∀ {ty : String} {cls : ModelType} (sref : PyRef),
      modelTypeToClass.lookup ty = some cls → (cls = .mnl ∧ sref = .none ∨ cls = .asym ∧ sref = .int 0) →
      ∃ m k t, createChoiceModel env ty exThreeAlts { exLogitArgs with shapeRefPos := sref } = .ok m ∧ m.cls = cls ∧
        HoldsResultsOf label sf m
          (logitFitCall exGlobal m ⟨⟨some (List.replicate k 0), none, none, none⟩, some 1, none, false⟩) t := by
    intro ty cls sref hk hcls
    obtain ⟨m, hm, e1, e2, e3⟩ := exBuilt env henv hk (by rcases hcls with ⟨rfl, rfl⟩ | ⟨rfl, rfl⟩ <;> simp)
      (L := exThreeAlts) rfl ha [("x", .allSame)] (by simp [exThreeAlts]) (by simp [SpecVal.ValidFor])
      (by simp [specColumns, SpecVal.columns])
      (A := { exLogitArgs with shapeRefPos := sref }) (iref := .none) (sref := sref) rfl
      (by rcases hcls with ⟨rfl, rfl⟩ | ⟨rfl, rfl⟩ <;> rfl) (by simp)
      (by rcases hcls with ⟨rfl, rfl⟩ | ⟨rfl, rfl⟩ <;> simp)
    obtain ⟨k, t, ht⟩ := exHolds hm (by rw [e1]; rcases hcls with ⟨rfl, rfl⟩ | ⟨rfl, rfl⟩ <;> simp)
      (s := [("x", .allSame)]) (by rw [e3]; rfl)
      (by simp) (by rw [e3]; rfl) (by rw [e2, e3]; exact ha) (by simp)
      (by rw [e2, e3]; exact ⟨_, hc⟩) (by rw [e2, e3]; exact hasc) (by rw [e2]; simp [exThreeAlts])
      (by rw [e3]; exact fun _ => .inl rfl)
      (by
        rw [e1, e3]
        rcases hcls with ⟨rfl, rfl⟩ | ⟨rfl, rfl⟩
        · simp
        · exact fun _ => ⟨0, rfl, by simp, by simp⟩) label sf
    exact ⟨m, k, t, hm, e1, ht⟩
  obtain ⟨m₁, k₁, t₁, hm₁, c₁, ht₁⟩ := key (ty := "MNL") (cls := .mnl) .none (by decide) (.inl ⟨rfl, rfl⟩)
  obtain ⟨m₂, k₂, t₂, hm₂, c₂, ht₂⟩ := key (ty := "Asym") (cls := .asym) (.int 0) (by decide) (.inr ⟨rfl, rfl⟩)
  obtain ⟨g1, g2⟩ := exGlobal_minimising
  refine ⟨m₁, m₂, k₁, k₂, t₁, t₂, hm₁, ht₁, hm₂, ht₂, ?_⟩
  refine asym_fits_better (s := [("x", .allSame)]) (s' := [("x", .allSame)]) hm₁ rfl hm₂ c₂ rfl (List.Sublist.refl _)
    ⟨rfl, rfl, rfl⟩ ha (by simp) hc g1 g1 g2 ?_ ?_ ?_ ?_ ht₁ ht₂ ?_
  · rfl
  · rfl
  · rfl
  · exact .inr ⟨by simp, by simp⟩
  · intro β hβ r
    obtain ⟨L, x, ρ, -, -, h1, -, -, -, h2⟩ := fits_beat_equal_shares (s := [("x", .allSame)]) hm₁ rfl ha (by simp [c₁])
      hc g1 g2 rfl ht₁
    obtain rfl : x = β := Option.some.inj (h1.symm.trans hβ)
    have h3 : (x.map (· ^ 2)).sum ≤ 2 := by
      have := (h2 (by simp)).2
      simp only [Option.getD_some, one_mul] at this
      exact this.trans hL
    have hlog : |Real.log 3| ≤ 2 := by
      rw [abs_of_nonneg (Real.log_nonneg (by norm_num))]
      have := Real.log_le_sub_one_of_pos (show (0 : ℝ) < 3 by norm_num)
      linarith
    have hv : |callersIndex exThreeAlts "alt" (specColumns [1, 2, 3] [("x", .allSame)]) x r| ≤ 10 := by
      cases x with
      | nil => simp [callersIndex, rowIndex]
      | cons b l =>
        have hb : b ^ 2 ≤ 2 := by
          have : 0 ≤ (l.map (· ^ 2)).sum := List.sum_nonneg fun y hy => by
            obtain ⟨z, -, rfl⟩ := List.mem_map.1 hy
            exact sq_nonneg z
          simp only [List.map_cons, List.sum_cons] at h3
          linarith
        have hb' : |b| ≤ 2 := abs_le_of_sq_le_sq (by linarith) (by norm_num)
        have hx : |exThreeAlts.val "x" r| ≤ 5 := by
          have h : ∀ r : Fin 3, |(![1, 2, 5] : Fin 3 → ℝ) r| ≤ 5 := by
            intro r
            fin_cases r <;> norm_num [abs_le]
          exact h r
        have e : callersIndex exThreeAlts "alt" (specColumns [1, 2, 3] [("x", .allSame)]) (b :: l) r =
            exThreeAlts.val "x" r * b := by
          simp [callersIndex, rowIndex, specColumns, SpecVal.columns, ColDesc.value]
        rw [e, abs_mul]
        nlinarith [abs_nonneg b, abs_nonneg (exThreeAlts.val "x" r)]
    refine ⟨hv.trans (by norm_num), (abs_sub _ _).trans ?_⟩
    have : Real.log (([1, 2, 3] : List ℝ).length : ℝ) = Real.log 3 := by simp
    rw [this]
    exact (add_le_add hv hlog).trans (by norm_num)

/-! ### The nested logit model -/

namespace LR

/-- Two observations with the same rows that chose differently. -/
noncomputable def exTwins : Frame ℝ := exFour ![0, 1, 0, 1] ![1, 0, 0, 1]

def exBoth : List (String × List ℝ) := [("both", [1, 2])]

def exBoth₀ : Fin exBoth.length := ⟨0, by simp [exBoth]⟩

def exBothArgs : ModelArgs ℝ := { exLogitArgs with nestSpec := some (encodeNests exBoth) }

/-- With both alternatives in one nest, the log-likelihood of the twins. -/
theorem exTwins_logLik {k : ℕ} (ids : List ℝ) (g : Fin exTwins.numRows → Fin exBoth.length)
    (V : (Fin k → ℝ) → Fin exTwins.numRows → ℝ) (θ : Fin (exBoth.length + k) → ℝ) (b : ℝ)
    (hV : ∀ r, V (indexPart θ) r = exTwins.val "x" r * b) :
    (⟨exTwins, "obs", "y", ids⟩ : LongData).nestedLogLik none g V θ =
      -Real.log (1 + Real.exp (-(b / nestLambda θ exBoth₀))) - Real.log (1 + Real.exp (b / nestLambda θ exBoth₀)) := by
  set t := b / nestLambda θ exBoth₀ with ht
  have hone : ∀ q : Fin exBoth.length, q = exBoth₀ := fun q => Subsingleton.elim (α := Fin 1) q _
  have hpos : ∀ o : ℝ, ∀ q, 0 ≤ nestSum (exTwins.val "obs") g (V (indexPart θ)) (nestLambda θ) o q := fun o q =>
    Finset.sum_nonneg fun _ _ => (Real.exp_pos _).le
  have hsum : ∀ r, nestSum (exTwins.val "obs") g (V (indexPart θ)) (nestLambda θ) (exTwins.val "obs" r) (g r) =
      1 + Real.exp t := by
    intro r
    have h2 : ∀ o : ℝ, (o = 1 ∨ o = 2) →
        ∑ s ∈ (Finset.univ.filter fun s : Fin 4 => (![1, 1, 2, 2] : Fin 4 → ℝ) s = o),
          Real.exp ((![0, 1, 0, 1] : Fin 4 → ℝ) s * b / nestLambda θ exBoth₀) = 1 + Real.exp t := by
      intro o ho
      rcases ho with rfl | rfl
      · rw [show (Finset.univ.filter fun s : Fin 4 => (![1, 1, 2, 2] : Fin 4 → ℝ) s = 1) = {0, 1} by
          ext s; fin_cases s <;> simp, Finset.sum_pair (by decide)]
        simp [ht]
      · rw [show (Finset.univ.filter fun s : Fin 4 => (![1, 1, 2, 2] : Fin 4 → ℝ) s = 2) = {2, 3} by
          ext s; fin_cases s <;> simp, Finset.sum_pair (by decide)]
        simp [ht]
    have h3 : exTwins.val "obs" r = 1 ∨ exTwins.val "obs" r = 2 := by
      change Fin 4 at r
      fin_cases r <;> simp [exTwins, exFour]
    refine Eq.trans ?_ (h2 _ h3)
    unfold nestSum nestRows
    refine Finset.sum_congr ?_ fun s _ => ?_
    · ext s
      simp only [Finset.mem_filter, Finset.mem_univ, true_and, hone (g s), hone (g r), and_true]
      have hobs : exTwins.val "obs" s = (![1, 1, 2, 2] : Fin 4 → ℝ) s := rfl
      rw [hobs]
      exact (Finset.mem_filter_univ (p := fun s : Fin 4 => (![1, 1, 2, 2] : Fin 4 → ℝ) s = exTwins.val "obs" r) s).symm
    · rw [hV, hone (g r)]; rfl
  have hprob : ∀ r, nestedProb (exTwins.val "obs") g (V (indexPart θ)) (nestLambda θ) r =
      Real.exp (exTwins.val "x" r * t) / (1 + Real.exp t) := by
    intro r
    have hav : availNests (exTwins.val "obs") g (exTwins.val "obs" r) = {g r} := by
      ext q
      simp only [availNests, Finset.mem_filter, Finset.mem_univ, true_and, Finset.mem_singleton]
      refine ⟨fun _ => (hone q).trans (hone (g r)).symm, fun h => ⟨r, ?_⟩⟩
      simp [nestRows, h]
    unfold nestedProb nestProb condProb
    rw [hav, Finset.sum_singleton, hsum, div_self (Real.rpow_pos_of_pos (by positivity) _).ne', one_mul, hV, hone (g r),
      mul_div_assoc]
  have hlog : ∀ r : Fin 4, Real.log (Real.exp (exTwins.val "x" r * t) / (1 + Real.exp t)) =
      exTwins.val "x" r * t - Real.log (1 + Real.exp t) := fun r => by
    rw [Real.log_div (Real.exp_pos _).ne' (by positivity), Real.log_exp]
  have hneg : Real.log (1 + Real.exp (-t)) = Real.log (1 + Real.exp t) - t := by
    have : 1 + Real.exp (-t) = (1 + Real.exp t) / Real.exp t := by
      rw [Real.exp_neg]; field_simp; ring
    rw [this, Real.log_div (by positivity) (Real.exp_pos _).ne', Real.log_exp]
  unfold LongData.nestedLogLik LongData.nestedProb
  simp only [hprob, Option.getD_none, zero_mul, sub_zero]
  refine (Fin.sum_univ_four _).trans ?_
  rw [hlog, hlog, hlog, hlog, hneg]
  simp [LongData.y, exTwins, exFour]
  ring

theorem exTwins_built (env : Env ℝ) (henv : env.badCol = fun _ => false) (hint : env.isInt = fun _ => true) :
    ∃ d names, createChoiceModel env "Nested Logit" exTwins exBothArgs =
      .ok ⟨.nested, displayNameOf (classOf .nested), exTwins, d, names, exBothArgs, none⟩ := by
  obtain ⟨d, hd⟩ : ∃ d, createDesignMatrix env.fmt env.fmtList exTwins
      (encodeAll [("x", SpecVal.allSame)]) "alt" none = .ok d :=
    ⟨_, design_success env.fmt env.fmtList exTwins [("x", .allSame)] "alt" [1, 2] (exFour_ids _ _).1
      (by simp [exTwins, exFour]) (by simp [exTwins, exFour]) (by simp [SpecVal.ValidFor])
      (by simp [SpecVal.columns])⟩
  have hk : modelTypeToClass.lookup "Nested Logit" = some .nested := by decide
  have hadd : addIntercept (encodeAll [("x", (SpecVal.allSame : SpecVal ℝ))]) exTwins = exTwins := by
    simp [addIntercept, encodeAll]
  refine ⟨d.1, d.2, ?_⟩
  simp only [createChoiceModel, hk]
  rw [classInit_iff]
  refine ⟨by simp [exBothArgs, exLogitArgs], baseInit_ok.2 ⟨initChecks_ok.2 ⟨?_, ?_, ?_, ?_⟩, ?_⟩⟩
  · simp [exBothArgs, exLogitArgs, exTwins, exFour, argsFor]
  · simp [exBothArgs, exLogitArgs, checkNamesAndRef, argsFor]
  · simp [exBothArgs, exLogitArgs, checkNamesAndRef, argsFor]
  · rw [checkNestSpecArg_ok (mem_allIds _ _)]
    rintro l hl
    refine ⟨exBoth, (Option.some.inj hl).symm, ?_⟩
    have hcol : exTwins.colList (argsFor .nested exBothArgs).altIdCol = [1, 2, 1, 2] := by
      simp [Frame.colList, exTwins, exFour, argsFor, exBothArgs, exLogitArgs]
    rw [hcol]
    exact ⟨by simp [exBoth], by simp [exBoth], by simp [hint], by simp [exBoth], by simp [exBoth]⟩
  · have : addIntercept (argsFor .nested exBothArgs).specification exTwins = exTwins := hadd
    rw [this, initBuild_iff]
    refine ⟨?_, ?_, d, hd, ?_, rfl⟩
    · simp [exBothArgs, exLogitArgs, exTwins, exFour, encodeAll, argsFor]
    · simp [henv]
    · simp [exBothArgs, exLogitArgs, argsFor]

end LR

open LR in
/-- Non-vacuity of `nests_fit_better`: on the twins, a fit of a multinomial logit model that stays at zero, and a fit of
a nested logit model by a global optimiser. -/
example (env : Env ℝ) (henv : env.badCol = fun _ => false) (hint : env.isInt = fun _ => true)
    (label : PyVal ℝ → String) (sf : ℝ → ℝ) :
    ∃ m₁ m₂ t₁ t₂, createChoiceModel env "MNL" exTwins exLogitArgs = .ok m₁ ∧
      HoldsResultsOf label sf m₁
        (logitFitCall exStaying m₁ ⟨⟨some [0], none, none, none⟩, none, none, false⟩) t₁ ∧
      createChoiceModel env "Nested Logit" exTwins exBothArgs = .ok m₂ ∧
      HoldsResultsOf label sf m₂
        (nestedFitCall exGlobal m₂ exBoth ⟨⟨some [0, 0], none, none, none⟩, none, some [0, 1], false⟩) t₂ ∧
      FitsAtLeastAsWell t₁ t₂ := by
  obtain ⟨ha, hids⟩ := exFour_ids ![0, 1, 0, 1] ![1, 0, 0, 1]
  obtain ⟨⟨chosen, hc⟩, hasc⟩ := exFour_facts ![0, 1, 0, 1]
  have hn : (specColumns [(1 : ℝ), 2] [("x", .allSame)]).length = 1 := by simp [specColumns, SpecVal.columns]
  obtain ⟨g1, g2⟩ := exGlobal_minimising
  -- the multinomial logit
  obtain ⟨m₁, hm₁, e1, e2, e3⟩ := exBuilt env henv (ty := "MNL") (cls := .mnl) (by decide) (by simp)
    (L := exTwins) rfl ha [("x", .allSame)] (by simp [exTwins, exFour]) (by simp [SpecVal.ValidFor])
    (by simp [specColumns, SpecVal.columns]) (A := exLogitArgs) (iref := .none) (sref := .none) rfl rfl
    (by simp) (by simp)
  obtain ⟨c, nm, dt, ds, ns, ar, ms⟩ := m₁
  obtain rfl : dt = _ := e2
  obtain rfl : ar = _ := e3
  obtain rfl : c = _ := e1
  have hst₁ := (mnl_fit_succeeds_iff hm₁ rfl (s := [("x", .allSame)]) rfl (by simp) (by intro ns h; cases h) ha hc label sf
    [] ⟨⟨some [0], none, none, none⟩, none, none, false⟩ rfl (by simp) (solver := exStaying)
    (.inl fun n f x h => ⟨_, rfl⟩)).2 ⟨⟨[0], rfl, by simp [hn]⟩, hasc, by simp [exTwins, exFour], by simp, .inr fun v hv => by
      have h := hv (0 : Fin 4) (1 : Fin 4) rfl
      simp [rowIndex, specColumns, SpecVal.columns, ColDesc.value, exTwins, exFour] at h
      funext k
      have hk : k = ⟨0, by simp [hn]⟩ := Fin.ext (by have := k.2; simp [hn] at this; omega)
      rw [hk]
      exact h.symm⟩
  have hcall := mnl_logit (m := ⟨.mnl, nm, exTwins, ds, ns, exLogitArgs, ms⟩) rfl rfl (by simp [exTwins, exFour]) exStaying
    ⟨⟨some [0], none, none, none⟩, none, none, false⟩
  -- the nested logit
  obtain ⟨d, names, hm₂⟩ := exTwins_built env henv hint
  set m₂ : ChoiceModel ℝ := ⟨.nested, displayNameOf (classOf .nested), exTwins, d, names, exBothArgs, none⟩ with hmd
  have hspec₂ : m₂.args.specification = encodeAll [("x", .allSame)] := rfl
  obtain ⟨r, hr⟩ : ∃ r, nestedFit exGlobal m₂ exBoth
      ⟨⟨some [0, 0], none, none, none⟩, none, some [0, 1], false⟩ = .ok r := by
    refine (nested_accepts_of hm₂ rfl rfl (by simp [exBoth]) hspec₂ ha _ ?_).2 ⟨⟨[0, 0], rfl, ?_⟩, hasc, ?_, ?_⟩
    · intro hrows rtn hrtn ps x
      obtain ⟨-, g, -, -, hrtn'⟩ := built_nests hm₂ rfl (ns := exBoth) rfl (by simp [exBoth])
      rw [hrtn'] at hrtn
      cases hrtn
      have hdes := (built_own hm₂).1.design
      rw [hspec₂] at hdes
      have hcols : m₂.design = (specColumns [1, 2] [("x", .allSame)]).map fun d => d.value m₂.data m₂.args.altIdCol :=
        design_entries ha hdes
      have hlen : m₂.design.length = 1 := by rw [hcols, List.length_map, hn]
      obtain ⟨f1, -⟩ := nested_facts (m := m₂) hrows (g := g)
        (Q := Matrix.of fun r j => if g r = j then 1 else 0) (fun r j => by rfl) hc hasc hids none
        (V := fun β r => rowIndex m₂.data m₂.args.altIdCol (specColumns [1, 2] [("x", .allSame)]) (List.ofFn β) r)
        fun β => funext fun r => design_dot hcols β r
      have hV : ∀ (β : Fin m₂.design.length → ℝ) r, rowIndex m₂.data m₂.args.altIdCol
          (specColumns [1, 2] [("x", .allSame)]) (List.ofFn β) r = exTwins.val "x" r * β ⟨0, by omega⟩ := by
        have key : ∀ n (h : n = 1) (β : Fin n → ℝ) r, rowIndex exTwins "alt"
            (specColumns [1, 2] [("x", .allSame)]) (List.ofFn β) r = exTwins.val "x" r * β ⟨0, by omega⟩ := by
          rintro n rfl β r
          simp [rowIndex, specColumns, SpecVal.columns, ColDesc.value]
        exact fun β r => key _ hlen β r
      refine exGlobal_finds _ _ _ _ ⟨fun _ => 0, fun y => ?_⟩
      have h1 := constrained_gradient_fst ((nestedObject m₂ hrows (Matrix.of fun r j => if g r = j then (1 : ℝ) else 0)
        none).est ps) fun _ => 0
      have h2 := constrained_gradient_fst ((nestedObject m₂ hrows (Matrix.of fun r j => if g r = j then (1 : ℝ) else 0)
        none).est ps) y
      refine h1.trans_le (le_trans (neg_le_neg ?_) h2.ge)
      have h3 := (f1 ps y).trans (exTwins_logLik _ g _ y _ fun r => hV _ r)
      have h4 := (f1 ps fun _ => 0).trans (exTwins_logLik _ g _ (fun _ => 0) 0 fun r => (hV _ r).trans (by simp [indexPart]))
      refine h3.trans_le ((four_le _).trans (le_of_eq (Eq.trans ?_ h4.symm)))
      rw [zero_div, neg_zero, Real.exp_zero, one_add_one_eq_two]
      ring
    · simp [hn, exBoth]
    · simp [m₂, exTwins, exFour]
    · intro z hz
      rcases List.mem_cons.1 hz with rfl | hz
      · exact ⟨(0 : Fin 2), Or.inl rfl⟩
      · obtain rfl := List.mem_singleton.1 hz
        exact ⟨(1 : Fin 2), Or.inl rfl⟩
  have hst₂ : (fitCall sf (nestedFitCall exGlobal m₂ exBoth
      ⟨⟨some [0, 0], none, none, none⟩, none, some [0, 1], false⟩) (fitCalls sf [] (freshFit label m₂))).2 = none := by
    obtain ⟨h1, -, h3⟩ := nested_fit_stores hm₂ rfl rfl (by simp [exBoth]) hspec₂ (by simp)
      (by intro ns h; cases h) ha hids hc label sf [] _ rfl hr
    refine h1.2 (h3 fun i => ?_)
    rcases i with ⟨i, hi⟩
    simp only [hn, exBoth, List.length_cons, List.length_nil] at hi
    interval_cases i
    · exact Or.inr ⟨0, by simp, Or.inl rfl⟩
    · exact Or.inr ⟨1, by simp, Or.inl rfl⟩
  obtain ⟨t₁, ht, ht₁⟩ : ∃ t, t = (fitCalls sf ([] ++ [mnlFitCall exStaying _
      ⟨⟨some [0], none, none, none⟩, none, none, false⟩]) (freshFit label ⟨.mnl, nm, exTwins, ds, ns, exLogitArgs, ms⟩)).attrs ∧
      HoldsResultsOf label sf _ (logitFitCall exStaying _ ⟨⟨some [0], none, none, none⟩, none, none, false⟩) t :=
    ⟨_, rfl, [], [], by rw [hcall]; exact hst₁, by simp, by rw [hcall]⟩
  obtain ⟨t₂, ht₂⟩ : ∃ t, HoldsResultsOf label sf m₂ (nestedFitCall exGlobal m₂ exBoth
      ⟨⟨some [0, 0], none, none, none⟩, none, some [0, 1], false⟩) t := ⟨_, [], [], hst₂, by simp, rfl⟩
  refine ⟨_, _, t₁, t₂, hm₁, ht₁, hm₂, ht₂, ?_⟩
  refine nests_fit_better (s := [("x", .allSame)]) (s' := [("x", .allSame)]) hm₁ rfl hm₂ rfl rfl (List.Sublist.refl _)
    (ns := exBoth) rfl (by simp [exBoth]) ⟨rfl, rfl, rfl⟩ ha hc exStaying_faithful g1 g2 ?_ ?_ ?_
    ht₁ ht₂ ?_
  · rfl
  · rfl
  · rfl
  intro β hβ r
  obtain ⟨n, x, labels, H, F, hn', -, ⟨x₀, hx₀, hopt⟩, hrep, -⟩ := mnl_fit_report hm₁ rfl
    (s := [("x", .allSame)]) rfl ha hids hc exStaying_faithful label sf [] [] _ rfl hst₁ (by simp)
  rw [hn] at hn'
  subst hn'
  cases hx₀
  have hx : x = fun _ => 0 := by
    obtain ⟨f, h, rep, hrun, rfl, -⟩ := hopt.run
    cases hrun
    funext i
    fin_cases i
    simp
  rw [ht] at hβ
  have h5 := hrep.statistics.params
  rw [h5] at hβ
  obtain rfl : List.ofFn x = β := Option.some.inj hβ
  rw [hx]
  have e : callersIndex exTwins "alt" (specColumns [1, 2] [("x", .allSame)]) (List.ofFn fun _ : Fin 1 => (0 : ℝ)) r = 0 := by
    simp [callersIndex, rowIndex, specColumns, SpecVal.columns]
  refine le_trans (le_of_eq (congrArg abs e)) ?_
  norm_num

/-! ### The mixed logit model -/

namespace LR

/-- A multinomial logit model of the table for the mixed logit model. -/
theorem exPeople_mnl (env : Env ℝ) (henv : env.badCol = fun _ => false) :
    ∃ m, createChoiceModel env "MNL" exPeople { exLogitArgs with choiceCol := "choice" } = .ok m ∧ m.cls = .mnl ∧
      m.data = exPeople ∧ m.args = { exLogitArgs with choiceCol := "choice" } := by
  obtain ⟨d, hd⟩ : ∃ d, createDesignMatrix env.fmt env.fmtList exPeople (encodeAll [("x", SpecVal.allSame)]) "alt" none =
      .ok d := ⟨_, design_success env.fmt env.fmtList exPeople [("x", .allSame)] "alt" [1, 2] exPeople_alts
        (by simp [exPeople]) (by simp [exPeople]) (by simp [SpecVal.ValidFor]) (by simp [SpecVal.columns])⟩
  have hk : modelTypeToClass.lookup "MNL" = some .mnl := by decide
  have hint : addIntercept (encodeAll [("x", (SpecVal.allSame : SpecVal ℝ))]) exPeople = exPeople := by
    simp [addIntercept, encodeAll]
  refine ⟨⟨.mnl, displayNameOf (classOf .mnl), exPeople, d.1, d.2, { exLogitArgs with choiceCol := "choice" }, none⟩, ?_,
    rfl, rfl, rfl⟩
  simp only [createChoiceModel, hk]
  rw [classInit_iff]
  refine ⟨by simp [exLogitArgs], baseInit_ok.2 ⟨initChecks_ok.2 ?_, ?_⟩⟩
  · simp [exLogitArgs, exPeople, checkNamesAndRef, checkNestSpecArg, argsFor]
  · have : addIntercept (argsFor .mnl { exLogitArgs with choiceCol := "choice" }).specification exPeople = exPeople := hint
    rw [this, initBuild_iff]
    refine ⟨?_, ?_, d, hd, ?_, rfl⟩
    · simp [exLogitArgs, exPeople, encodeAll, argsFor]
    · simp [henv]
    · simp [exLogitArgs, argsFor]

theorem exPeople_facts : OneChoicePerObs exPeople "obs" "choice" (fun o => if o = 1 then (0 : Fin 4) else (3 : Fin 4)) ∧
    (exPeople.colList "obs").Pairwise (· ≤ ·) := by
  refine ⟨⟨?_, ?_, ?_⟩, by simp [exPeople, Frame.colList]⟩ <;>
    intro r <;> change Fin 4 at r <;> fin_cases r <;> simp [exPeople]

end LR

open LR in
/-- Non-vacuity of `mixing_fits_better`, and of `penalised_mixed_fit_accepts`: with ridge penalty 1, fits by a global
optimiser of a multinomial logit model, and of a mixed logit model that mixes the coefficient over two people. -/
example (env : Env ℝ) (henv : env.badCol = fun _ => false) (st : ℕ) (label : PyVal ℝ → String)
    (hlabel : label (.str "x") = "x") (sf : ℝ → ℝ) :
    ∃ m₁ m₂ k₁ t₁ t₂, createChoiceModel env "MNL" exPeople { exLogitArgs with choiceCol := "choice" } = .ok m₁ ∧
      HoldsResultsOf label sf m₁
        (logitFitCall exGlobal m₁ ⟨⟨some (List.replicate k₁ 0), none, none, none⟩, some 1, none, false⟩) t₁ ∧
      createChoiceModel env "Mixed Logit" exPeople exPeopleArgs = .ok m₂ ∧
      HoldsResultsOf label sf m₂ (mixedFitCall countingRng exGlobal m₂ (exMixedArgs (some 1) (some [0, 1])) st) t₂ ∧
      FitsAtLeastAsWell t₁ t₂ ∧ RhoAtLeast t₁ t₂ := by
  obtain ⟨hc, hasc⟩ := exPeople_facts
  obtain ⟨g1, g2⟩ := exGlobal_minimising
  obtain ⟨m₁, hm₁, e1, e2, e3⟩ := exPeople_mnl env henv
  obtain ⟨k, t₁, ht₁⟩ := exHolds hm₁ (.inl e1) (s := [("x", .allSame)]) (by rw [e3]; rfl) (by simp) (by rw [e3]; rfl)
    (by rw [e2, e3]; exact exPeople_alts) (by simp [e1]) (by rw [e2, e3]; exact ⟨_, hc⟩) (by rw [e2, e3]; exact hasc)
    (by rw [e2]; simp [exPeople]) (by simp [e1]) (by simp [e1]) label sf
  obtain ⟨m₂, hm₂, f1, f2, f3⟩ := exPeople_model env henv (L := exPeople) rfl exPeople_alts
  have hname : ∀ j (hj : j < ["x"].length), m₂.indVarNames[(fun _ => 0 : ℕ → ℕ) j]? = some (.str ["x"][j]) ∧
      ∀ i < (fun _ => 0 : ℕ → ℕ) j, m₂.indVarNames[i]? ≠ some (.str ["x"][j]) := by
    intro j hj
    obtain rfl : j = 0 := by simpa using hj
    simp [f3]
  have hcol : (specColumns [1, 2] [("x", (SpecVal.allSame : SpecVal ℝ))]).length = 1 := by
    simp [specColumns, SpecVal.columns]
  obtain ⟨chosen, hc₂⟩ : ∃ c, OneChoicePerObs m₂.data m₂.args.obsIdCol m₂.args.choiceCol c := by
    rw [f1, f2]
    exact ⟨_, hc⟩
  obtain ⟨r, hr⟩ := (penalised_mixed_fit_accepts countingRng hm₂ rfl (s := [("x", .allSame)]) (by rw [f1]; rfl) (by simp)
    (by rw [f1]; intro ns h; cases h) (alts := [1, 2]) (by rw [f1, f2]; exact exPeople_alts) hc₂ hname exGlobal_finds
    (exMixedArgs (some 1) (some [0, 1])) st (by simp [exMixedArgs])).2
    ⟨⟨[0, 0], rfl, by simp [hcol]⟩, by simp, ⟨1, one_pos, rfl⟩, ⟨(1 : ℕ), .inr ⟨1, one_pos, rfl, by simp [countingRng]⟩⟩,
      ⟨"person", rfl, by rw [f2]; simp [exPeople]⟩, by rw [f1, f2]; exact hasc, by rw [f2]; simp [exPeople], by
        intro z hz
        rcases List.mem_cons.1 hz with rfl | hz
        · exact ⟨(0 : Fin 2), Or.inl rfl⟩
        · obtain rfl := List.mem_singleton.1 hz
          exact ⟨(1 : Fin 2), Or.inl rfl⟩⟩
  have hst : (fitCall sf (mixedFitCall countingRng exGlobal m₂ (exMixedArgs (some 1) (some [0, 1])) st)
      (fitCalls sf [] (freshFit label m₂))).2 = none := by
    obtain ⟨h1, -, h3⟩ := mixed_fit_stores countingRng hm₂ rfl (s := [("x", .allSame)]) (by rw [f1]; rfl) (by simp)
      (by rw [f1]; intro ns h; cases h) hc₂ hname label sf [] _ st rfl hr
    refine h1.2 ⟨h3 fun i => ?_, ?_⟩
    · rcases i with ⟨i, hi⟩
      simp only [f3, List.length_cons, List.length_nil] at hi
      interval_cases i
      · exact ⟨0, by simp [exMixedArgs], Or.inl (by simp)⟩
      · exact ⟨1, by simp [exMixedArgs], Or.inl (by simp)⟩
    · rw [f3]
      simp only [List.mem_singleton, forall_eq, hlabel]
      decide
  obtain ⟨t₂, ht₂⟩ : ∃ t, HoldsResultsOf label sf m₂ (mixedFitCall countingRng exGlobal m₂
      (exMixedArgs (some 1) (some [0, 1])) st) t := ⟨_, [], [], hst, by simp, rfl⟩
  refine ⟨m₁, m₂, k, t₁, t₂, hm₁, ht₁, hm₂, ht₂, ?_⟩
  refine mixing_fits_better countingRng (s := [("x", .allSame)]) (s' := [("x", .allSame)]) hm₁ rfl hm₂ rfl
    (List.Sublist.refl _) (by simp) (by rw [f1]; intro ns h; cases h) (vars := ["x"]) rfl (by simp [f3]) ⟨rfl, rfl, rfl⟩
    exPeople_alts hc g1 g1 g2 ?_ ?_ ?_ ht₁ ht₂ <;> rfl

end Pylogit
