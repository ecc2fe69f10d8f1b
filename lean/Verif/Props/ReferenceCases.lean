import Verif.Props.ReferenceAlternative
import Verif.Props.LikelihoodRatioCases

/-!
# C132: concrete cases
-/

namespace Pylogit

open Spec

noncomputable section

namespace Reference

/-- Two observations of the same situation, with different choices. -/
def exSame : Frame ℝ := exFour ![0, 1, 0, 1] ![1, 0, 0, 1]

theorem four_ll (u : Fin 4 → ℝ) :
    ∑ r : Fin 4, (![1, 0, 0, 1] : Fin 4 → ℝ) r * Real.log (clippedLogit (![1, 1, 2, 2] : Fin 4 → ℝ) u r) =
    Real.log (Real.exp (clip700 (u 0)) / (Real.exp (clip700 (u 0)) + Real.exp (clip700 (u 1)))) +
    Real.log (Real.exp (clip700 (u 3)) / (Real.exp (clip700 (u 2)) + Real.exp (clip700 (u 3)))) := by
  rw [Fin.sum_univ_four]
  simp only [clippedLogit, logitProb, rowsOf, Finset.sum_filter, Fin.sum_univ_four]
  simp

theorem exSame_ll (u : Fin 4 → ℝ) : LR.ll exSame "obs" "y" u =
    Real.log (Real.exp (clip700 (u 0)) / (Real.exp (clip700 (u 0)) + Real.exp (clip700 (u 1)))) +
    Real.log (Real.exp (clip700 (u 3)) / (Real.exp (clip700 (u 2)) + Real.exp (clip700 (u 3)))) := by
  have hf : exSame.val "obs" = ![1, 1, 2, 2] := by simp [exSame, exFour]
  have hy : exSame.val "y" = ![1, 0, 0, 1] := by simp [exSame, exFour]
  unfold LR.ll
  rw [hf, hy]
  exact four_ll u

theorem exSame_le {u : Fin 4 → ℝ} (h0 : u 2 = u 0) (h1 : u 3 = u 1) (c : ℝ) :
    LR.ll exSame "obs" "y" u ≤ LR.ll exSame "obs" "y" fun _ => c := by
  refine (exSame_ll u).trans_le (le_trans ?_ (exSame_ll fun _ => c).ge)
  rw [h0, h1, ← Real.log_mul (by positivity) (by positivity),
    ← Real.log_mul (by positivity) (by positivity)]
  refine Real.log_le_log (by positivity) ?_
  have hc := Real.exp_pos (clip700 c)
  set a := Real.exp (clip700 (u 0)) with ha
  set b := Real.exp (clip700 (u 1)) with hb
  have ha : 0 < a := Real.exp_pos _
  have hb : 0 < b := Real.exp_pos _
  have e : Real.exp (clip700 c) / (Real.exp (clip700 c) + Real.exp (clip700 c)) = 1 / 2 := by field_simp; norm_num
  rw [e, div_mul_div_comm, div_le_iff₀ (by positivity)]
  nlinarith [sq_nonneg (a - b)]

theorem zeros_part {l x y : List ℝ} (h : l = x ++ y) (h0 : ∀ v ∈ l, v = 0) : (∀ v ∈ x, v = 0) ∧ ∀ v ∈ y, v = 0 := by
  subst h
  exact ⟨fun v hv => h0 v (List.mem_append_left _ hv), fun v hv => h0 v (List.mem_append_right _ hv)⟩

theorem others_zero {alts : List ℝ} {ref : PyRef} {q : ℝ → ℝ} {x : List ℝ} (h : ListsOthers alts ref q x)
    (h0 : ∀ v ∈ x, v = 0) : ∀ a ∈ alts, q a = 0 := by
  obtain ⟨z, hz, -, rfl, hz0⟩ := h
  intro a ha
  obtain ⟨i, hi, rfl⟩ := List.getElem_of_mem ha
  by_cases e : i = z
  · subst e; exact hz0
  · exact h0 _ (List.mem_map.2 ⟨_, List.mem_eraseIdx_iff_getElem.2 ⟨i, hi, e, rfl⟩, rfl⟩)

/-- The penalised fit of the asymmetric model of the symmetric table is at zero, far from clipping. -/
theorem exSame_far {env : Env ℝ} {iref sref : PyRef} {m : ChoiceModel ℝ}
    (hm : createChoiceModel env "Asym" exSame { exLogitArgs with interceptRefPos := iref, shapeRefPos := sref } = .ok m)
    (hcls : m.cls = .asym) (ha : m.args.altIdCol = "alt") {chosen : ℝ → Fin exSame.numRows}
    (hc : OneChoicePerObs exSame "obs" "y" chosen) {label : PyVal ℝ → String} {sf : ℝ → ℝ} {k : ℕ} {t : FitAttrs}
    (ht : HoldsResultsOf label sf m
      (logitFitCall exGlobal m ⟨⟨some (List.replicate k 0), none, none, none⟩, some 1, none, false⟩) t) :
    FarFromClipping m exSame [1, 2] (specColumns [1, 2] [("x", .allSame)]) t := by
  obtain ⟨g1, g2⟩ := exGlobal_minimising
  obtain ⟨-, n, x, U, L, hU, hL, -, h3, -, h4, -⟩ := LR.extract (s := [("x", .allSame)]) hm rfl (exFour_ids _ _).1
    (by simp) hc g1 rfl ht
  have hle : ∀ θ : Fin n → ℝ, LR.ll exSame "obs" "y" (U θ) ≤ LR.ll exSame "obs" "y" fun _ => 0 := by
    intro θ
    obtain ⟨p, q, -, -, -, -, -, h⟩ := hU θ
    have e : ∀ i j : Fin 4, exSame.val "alt" i = exSame.val "alt" j → exSame.val "x" i = exSame.val "x" j →
        U θ i = U θ j := by
      intro i j h1 h2
      refine (h i).trans (Eq.trans ?_ (h j).symm)
      have e1 : callersIndex exSame "alt" (specColumns [1, 2] [("x", .allSame)]) p.index i =
          callersIndex exSame "alt" (specColumns [1, 2] [("x", .allSame)]) p.index j := by
        refine congrArg List.sum (List.map_congr_left fun c hc => ?_)
        have hcx : c.1 = .same "x" := List.mem_singleton.1 (List.of_mem_zip hc).1
        simp only [hcx, ColDesc.value]
        exact congrArg (fun v => v * c.2) (by simpa using h2)
      exact congrArg₂ (rowUtility m.cls [1, 2] q) h1 e1
    exact exSame_le (e 2 0 (by simp [exSame, exFour]) (by simp [exSame, exFour]))
      (e 3 1 (by simp [exSame, exFour]) (by simp [exSame, exFour])) 0
  obtain ⟨L', -, -, l1, -, -, -, l2, -⟩ := fits_beat_equal_shares (s := [("x", .allSame)]) hm rfl (exFour_ids _ _).1
    (by simp) hc g1 g2 rfl ht
  rw [h3] at l1
  have l3 : LR.ll exSame "obs" "y" (fun _ => 0) ≤ L := by
    rw [LR.flat_ll, Option.some.inj l1]
    exact le_of_sub_nonneg (nonneg_of_mul_nonneg_right l2 two_pos)
  have hx : ∀ i, x i = 0 := by
    have h5 := hle x
    have hL : L = LR.ll exSame "obs" "y" (U x) - 1 * ∑ k, x k ^ 2 := hL
    have h6 : ∑ i, x i ^ 2 ≤ 0 := by linarith
    intro i
    have h9 := (Finset.sum_eq_zero_iff_of_nonneg fun i _ => sq_nonneg (x i)).1
      (le_antisymm h6 (Finset.sum_nonneg fun i _ => sq_nonneg (x i))) i (Finset.mem_univ i)
    exact pow_eq_zero_iff (two_ne_zero) |>.1 h9
  intro x' p q hx' hp r b hb
  rw [h4] at hx'
  have e0 : ∀ v ∈ x', v = 0 := by
    intro v hv
    rw [← Option.some.inj hx'] at hv
    obtain ⟨i, rfl⟩ := (List.mem_ofFn' _ _).1 hv
    exact hx i
  obtain ⟨z1, z2⟩ := zeros_part hp.all e0
  obtain ⟨z2, z3⟩ := zeros_part rfl z2
  have hi : ∀ a ∈ [(1 : ℝ), 2], q.icpt a = 0 := by
    cases e : p.intercepts with
    | none => exact hp.holds.noIcpt e
    | some v => exact others_zero (hp.holds.icpt v e) (by rw [e] at z2; exact z2)
  have hs : ∀ a ∈ [(1 : ℝ), 2], q.shape a = 0 := by
    obtain ⟨v, e, hv⟩ := hp.holds.eta hcls
    exact others_zero hv (by rw [e] at z1; exact z1)
  have hv : callersIndex exSame m.args.altIdCol (specColumns [1, 2] [("x", .allSame)]) p.index r = 0 := by
    rw [List.eq_replicate_of_mem z3]
    exact LR.index_zero _ _ _ _ _
  have hr : exSame.val m.args.altIdCol r ∈ [(1 : ℝ), 2] := by
    rw [ha]; exact ((exFour_ids _ _).1.mem _).2 ⟨r, rfl⟩
  have hu : rowUtility m.cls [1, 2] q (exSame.val m.args.altIdCol r) 0 = Real.log (1 / 2) := by
    rw [hcls]
    simp only [rowUtility, List.map_cons, List.map_nil, List.sum_cons, List.sum_nil, hi _ hr, hs _ hr, hs 1 (by simp),
      hs 2 (by simp), Real.exp_zero]
    norm_num
  rw [hv, hu, hi b hb, sub_zero, one_div, Real.log_inv, abs_neg, abs_of_nonneg (Real.log_nonneg (by norm_num))]
  have := Real.log_two_lt_d9
  linarith

/-- The penalised fit of the asymmetric model of the symmetric table, for any reference alternatives. -/
theorem exSame_fits (env : Env ℝ) (henv : env.badCol = fun _ => false) (label : PyVal ℝ → String) (sf : ℝ → ℝ) (i j : ℤ)
    (hi : 0 ≤ i ∧ i < 2) (hj : 0 ≤ j ∧ j < 2) :
    ∃ m k t, createChoiceModel env "Asym" exSame
        { exLogitArgs with interceptRefPos := .int i, shapeRefPos := .int j } = .ok m ∧ m.cls = .asym ∧
      HoldsResultsOf label sf m
        (logitFitCall exGlobal m ⟨⟨some (List.replicate k 0), none, none, none⟩, some 1, none, false⟩) t ∧
      FarFromClipping m exSame [1, 2] (specColumns [1, 2] [("x", .allSame)]) t := by
  have ha := (exFour_ids ![0, 1, 0, 1] ![1, 0, 0, 1]).1
  obtain ⟨⟨chosen, hc⟩, hasc⟩ := LR.exFour_facts ![0, 1, 0, 1]
  obtain ⟨m, hm, e1, e2, e3⟩ := LR.exBuilt env henv (ty := "Asym") (cls := .asym) (by decide) (by simp)
    (L := exSame) rfl ha [("x", .allSame)] (by simp [exSame, exFour]) (by simp [SpecVal.ValidFor])
    (by simp [specColumns, SpecVal.columns])
    (A := { exLogitArgs with interceptRefPos := .int i, shapeRefPos := .int j }) (iref := .int i) (sref := .int j) rfl
    rfl (by simp) (by simp)
  obtain ⟨k, t, ht⟩ := LR.exHolds hm (by simp [e1])
    (s := [("x", .allSame)]) (by rw [e3]; rfl)
    (by simp) (by rw [e3]; rfl) (by rw [e2, e3]; exact ha) (by simp)
    (by rw [e2, e3]; exact ⟨_, hc⟩) (by rw [e2, e3]; exact hasc) (by rw [e2]; simp [exSame, exFour])
    (by rw [e3]; exact fun _ => .inr ⟨i, rfl, hi.1, by simpa using hi.2⟩)
    (by rw [e3]; exact fun _ => ⟨j, rfl, hj.1, by simpa using hj.2⟩) label sf
  exact ⟨m, k, t, hm, e1, ht, exSame_far hm e1 (by rw [e3]; rfl) hc ht⟩

end Reference

open Reference in
/-- Non-vacuity of `fits_ignore_reference_alternative`: fits with ridge penalty 1 of two asymmetric models, with the
intercept of the second and the shape of the first alternative, and the other way round. -/
example (env : Env ℝ) (henv : env.badCol = fun _ => false) (label : PyVal ℝ → String) (sf : ℝ → ℝ) :
    ∃ m m' k k' t t',
      let f := fun m k => logitFitCall exGlobal m ⟨⟨some (List.replicate k 0), none, none, none⟩, some 1, none, false⟩
      createChoiceModel env "Asym" exSame { exLogitArgs with interceptRefPos := .int 0, shapeRefPos := .int 1 } = .ok m ∧
      createChoiceModel env "Asym" exSame { exLogitArgs with interceptRefPos := .int 1, shapeRefPos := .int 0 } = .ok m' ∧
      HoldsResultsOf label sf m (f m k) t ∧ HoldsResultsOf label sf m' (f m' k') t' ∧ FitEquallyWell t t' := by
  obtain ⟨m, k, t, hm, hcls, ht, hfar⟩ := exSame_fits env henv label sf 0 1 (by norm_num) (by norm_num)
  obtain ⟨m', k', t', hm', hcls', ht', hfar'⟩ := exSame_fits env henv label sf 1 0 (by norm_num) (by norm_num)
  obtain ⟨⟨chosen, hc⟩, -⟩ := LR.exFour_facts ![0, 1, 0, 1]
  obtain ⟨g1, g2⟩ := exGlobal_minimising
  exact ⟨m, m', k, k', t, t', hm, hm', ht, ht',
    fits_ignore_reference_alternative (s := [("x", .allSame)]) (iref := .int 1) (sref := .int 0)
      (inm := none) (snm := none) hm rfl hm' (by simp) (exFour_ids ![0, 1, 0, 1] ![1, 0, 0, 1]).1 (by simp) hc g1 g2 g1 g2 (by rfl)
      (by rfl) (by rfl) (.inr rfl) ht ht' hfar hfar'⟩

namespace Reference

/-- Intercepts 0, 5 and 7 for three alternatives. -/
def exIcpts : AltParams := ⟨fun a => if a = 1 then 0 else if a = 2 then 5 else 7, fun _ => 0⟩

theorem exIcpts_utility (a v : ℝ) : rowUtility .scobit [1, 2, 3] exIcpts a v = exIcpts.icpt a + v := by
  have := LR.neutral (.inl rfl) (cls := .scobit) [1, 2, 3] a v
  simp only [rowUtility, exIcpts] at this ⊢
  linarith

theorem exThree_built (env : Env ℝ) (henv : env.badCol = fun _ => false) (i : ℤ) :
    ∃ m, createChoiceModel env "Scobit" exThreeAlts { exLogitArgs with interceptRefPos := .int i } = .ok m ∧
      m.cls = .scobit ∧ m.data = exThreeAlts ∧ m.args = { exLogitArgs with interceptRefPos := .int i } :=
  LR.exBuilt env henv (ty := "Scobit") (cls := .scobit) (by decide) (by simp) (L := exThreeAlts) rfl LR.exThree_facts.1
    [("x", .allSame)] (by simp [exThreeAlts]) (by simp [SpecVal.ValidFor]) (by simp [specColumns, SpecVal.columns])
    (A := { exLogitArgs with interceptRefPos := .int i }) (iref := .int i) (sref := .none) rfl rfl (by simp) (by simp)

theorem exHolds₀ : HoldsFor .scobit [1, 2, 3] (.int 0) .none ⟨[1], some [5, 7], some [0, 0, 0], none⟩ exIcpts := by
  refine ⟨by simp, fun x hx => ?_, fun _ => by simp [exIcpts], by simp⟩
  cases hx
  exact ⟨0, by simp, rfl, by norm_num [exIcpts], by simp [exIcpts]⟩

theorem exHolds₂ : HoldsFor .scobit [1, 2, 3] (.int 2) .none ⟨[1], some [-7, -2], some [0, 0, 0], none⟩
    (exIcpts.measuredFrom .scobit 3 1) := by
  refine ⟨by simp, fun x hx => ?_, fun _ => by simp [exIcpts, AltParams.measuredFrom], by simp⟩
  cases hx
  exact ⟨2, by simp, rfl, by norm_num [exIcpts, AltParams.measuredFrom], by simp [AltParams.measuredFrom]⟩

theorem exThree_clip (r : Fin exThreeAlts.numRows) :
    |rowUtility .scobit [1, 2, 3] exIcpts (exThreeAlts.val "alt" r)
      (rowIndex exThreeAlts "alt" (specColumns [1, 2, 3] [("x", .allSame)]) [1] r)| < 700 ∧
    |rowUtility .scobit [1, 2, 3] exIcpts (exThreeAlts.val "alt" r)
      (rowIndex exThreeAlts "alt" (specColumns [1, 2, 3] [("x", .allSame)]) [1] r) - exIcpts.icpt 3| < 700 := by
  have hx : rowIndex exThreeAlts "alt" (specColumns [1, 2, 3] [("x", .allSame)]) [1] r = exThreeAlts.val "x" r := by
    simp [rowIndex, specColumns, SpecVal.columns, ColDesc.value]
  have h1 : |exThreeAlts.val "x" r| ≤ 5 := by
    have hv : exThreeAlts.val "x" = ![1, 2, 5] := by simp [exThreeAlts]
    have h0 : ∀ r : Fin 3, |(![1, 2, 5] : Fin 3 → ℝ) r| ≤ 5 := by
      intro r
      fin_cases r <;> norm_num
    rw [hv]
    exact h0 r
  have h2 : ∀ a, 0 ≤ exIcpts.icpt a ∧ exIcpts.icpt a ≤ 7 := by
    intro a
    simp only [exIcpts]
    split_ifs <;> norm_num
  obtain ⟨h3, h4⟩ := abs_le.1 h1
  obtain ⟨h5, h6⟩ := h2 (exThreeAlts.val "alt" r)
  obtain ⟨h7, h8⟩ := h2 3
  rw [exIcpts_utility, hx, abs_lt, abs_lt]
  exact ⟨⟨by linarith, by linarith⟩, by linarith, by linarith⟩

end Reference

open Reference in
/-- Non-vacuity of `logLik_ignores_reference_alternative` and `predictions_ignore_reference_alternative`: a scobit model of
three alternatives with intercepts 0, 5 and 7, and one with intercepts -7, -2 and 0. -/
example (env : Env ℝ) (henv : env.badCol = fun _ => false) :
    ∃ m m' res res', createChoiceModel env "Scobit" exThreeAlts { exLogitArgs with interceptRefPos := .int 0 } = .ok m ∧
      createChoiceModel env "Scobit" exThreeAlts { exLogitArgs with interceptRefPos := .int 2 } = .ok m' ∧
      (fitInputs m' m'.data).logLik id .scobit (.int 2) .none ⟨[1], some [-7, -2], some [0, 0, 0], none⟩ =
        (fitInputs m m.data).logLik id .scobit (.int 0) .none ⟨[1], some [5, 7], some [0, 0, 0], none⟩ ∧
      predict env m ⟨[1], some [5, 7], some [0, 0, 0], none⟩ exThreeAlts none true (some "y") = .ok res ∧
      predict env m' ⟨[1], some [-7, -2], some [0, 0, 0], none⟩ exThreeAlts none true (some "y") = .ok res' ∧
      HEq res' res := by
  obtain ⟨m, hm, c, d, e⟩ := exThree_built env henv 0
  obtain ⟨m', hm', c', d', e'⟩ := exThree_built env henv 2
  obtain ⟨cls, nm, dt, ds, ns, ar, ms⟩ := m
  obtain ⟨cls', nm', dt', ds', ns', ar', ms'⟩ := m'
  dsimp only at c d e c' d' e'
  subst c d e c' d' e'
  have ha := LR.exThree_facts.1
  have hadd : addIntercept (encodeAll [("x", SpecVal.allSame)]) exThreeAlts = exThreeAlts := by
    simp [addIntercept, encodeAll]
  have key : ∀ (mm : ChoiceModel ℝ) (i : ℤ) (p : ParamArrays) (q : AltParams), mm.cls = .scobit →
      mm.args = { exLogitArgs with interceptRefPos := .int i } → HoldsFor .scobit [1, 2, 3] (.int i) .none p q →
      p.index = [1] → ∃ res, predict env mm p exThreeAlts none true (some "y") = .ok res := by
    intro mm i p q h1 h2 h3 h4
    have hadd' : addIntercept mm.args.specification exThreeAlts = exThreeAlts := by rw [h2]; exact hadd
    refine ⟨_, predict_succeeds env mm (s := [("x", .allSame)]) (by rw [h2]; rfl) (by rw [h2]; rfl) (by rw [h2]; rfl) p _
      true (some "y") (alts := [1, 2, 3]) (q := q) (by rw [hadd', h2]; exact ha) (by simp) (by rw [h1, h2]; exact h3) ?_ ?_ ?_
      (by simp [SpecVal.ValidFor]) (by simp [specColumns, SpecVal.columns]) (by rw [h4]; rfl) ?_ (.inl rfl)⟩
    all_goals rw [hadd']
    · rw [h2]; simp [exThreeAlts, exLogitArgs]
    · rw [h2]; simp [exThreeAlts, exLogitArgs]
    · simp [exThreeAlts]
    · simp [exThreeAlts]
  obtain ⟨res, h⟩ := key ⟨.scobit, nm, exThreeAlts, ds, ns, { exLogitArgs with interceptRefPos := .int 0 }, ms⟩ 0 _ _ rfl rfl exHolds₀ rfl
  obtain ⟨res', h'⟩ := key ⟨.scobit, nm', exThreeAlts, ds', ns', { exLogitArgs with interceptRefPos := .int 2 }, ms'⟩ 2 _ _
    rfl rfl exHolds₂ rfl
  refine ⟨_, _, res, res', hm, hm', ?_, h, h', ?_⟩
  · exact logLik_ignores_reference_alternative (s := [("x", .allSame)]) (iref := .int 2) (sref := .none) (inm := none)
      (snm := none) hm rfl hm' (by simp) ha (by simp) exHolds₀ exHolds₂ rfl rfl exThree_clip
  · refine predictions_ignore_reference_alternative (s := [("x", .allSame)]) (iref := .int 2) (sref := .none) (inm := none)
      (snm := none) (alts := [1, 2, 3]) (stored := ⟨[1], some [5, 7], some [0, 0, 0], none⟩)
      (stored' := ⟨[1], some [-7, -2], some [0, 0, 0], none⟩) (pl := none) (pl' := none) (q := exIcpts) (b := 3) (c := 1)
      hm rfl hm' ?_ (by simp) exHolds₀ exHolds₂ rfl ?_ h h'
    · exact hadd.symm ▸ ha
    · have : addIntercept exLogitArgs.specification exThreeAlts = exThreeAlts := hadd
      dsimp only
      rw [this]
      exact exThree_clip

end

end Pylogit
