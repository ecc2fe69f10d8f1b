import Verif.Props.LeftOutPredict
import Verif.Props.ReferenceCases

/-!
# C133: concrete cases
-/

namespace Pylogit

open Spec

noncomputable section

namespace LeftOut

/-- Two observations of two alternatives with a variable that is one everywhere, and with different choices. -/
def exOnes : Frame ℝ := exFour ![1, 1, 1, 1] ![1, 0, 0, 1]

theorem exOnes_ll (u : Fin 4 → ℝ) : LR.ll exOnes "obs" "y" u =
    Real.log (Real.exp (clip700 (u 0)) / (Real.exp (clip700 (u 0)) + Real.exp (clip700 (u 1)))) +
    Real.log (Real.exp (clip700 (u 3)) / (Real.exp (clip700 (u 2)) + Real.exp (clip700 (u 3)))) := by
  have hf : exOnes.val "obs" = ![1, 1, 2, 2] := by simp [exOnes, exFour]
  have hy : exOnes.val "y" = ![1, 0, 0, 1] := by simp [exOnes, exFour]
  unfold LR.ll
  rw [hf, hy]
  exact Reference.four_ll u

/-- Utilities that do not differ between the observations are best if they do not differ between the alternatives. -/
theorem exOnes_best {u : Fin 4 → ℝ} (h0 : u 2 = u 0) (h1 : u 3 = u 1)
    (h : LR.ll exOnes "obs" "y" (fun _ => 0) ≤ LR.ll exOnes "obs" "y" u) : clip700 (u 0) = clip700 (u 1) := by
  have h := (exOnes_ll fun _ => 0).ge.trans (h.trans_eq (exOnes_ll u))
  rw [h0, h1, ← Real.log_mul (by positivity) (by positivity),
    ← Real.log_mul (by positivity) (by positivity), Real.log_le_log_iff (by positivity) (by positivity)] at h
  refine Real.exp_injective ?_
  set a := Real.exp (clip700 (u 0)) with ha
  set b := Real.exp (clip700 (u 1)) with hb
  have ha : 0 < a := Real.exp_pos _
  have hb : 0 < b := Real.exp_pos _
  have e : Real.exp (clip700 0) = 1 := by rw [Reference.clip_id (by norm_num), Real.exp_zero]
  rw [e, div_mul_div_comm a, le_div_iff₀ (by positivity)] at h
  have h2 : (a - b) ^ 2 ≤ 0 := by nlinarith
  have h3 : (a - b) ^ 2 = 0 := le_antisymm h2 (sq_nonneg _)
  linarith [pow_eq_zero_iff (two_ne_zero) |>.1 h3]

theorem clip_zero {x : ℝ} (h : clip700 x = 0) : x = 0 := by
  unfold clip700 at h
  rcases le_total x 700 with h1 | h1
  · rw [min_eq_left h1] at h
    rcases le_total (-700) x with h2 | h2
    · rwa [max_eq_right h2] at h
    · rw [max_eq_left h2] at h; norm_num at h
  · rw [min_eq_right h1] at h; norm_num at h

/-- The model with a constant for the alternative `c` alone, and its fit. -/
theorem exOnes_fit (env : Env ℝ) (henv : env.badCol = fun _ => false) (label : PyVal ℝ → String) (sf : ℝ → ℝ) (c : ℝ)
    (hc12 : c = 1 ∨ c = 2) :
    ∃ m k t, createChoiceModel env "MNL" exOnes
        { exLogitArgs with specification := encodeAll (withCoefs [] "x" [c] []), names := none } = .ok m ∧ m.cls = .mnl ∧
      HoldsResultsOf label sf m
        (logitFitCall exGlobal m ⟨⟨some (List.replicate k 0), none, none, none⟩, none, none, false⟩) t ∧
      FarWithout exOnes "alt" (specColumns [1, 2] (withCoefs [] "x" [c] [])) "x" t := by
  have ha := (exFour_ids ![1, 1, 1, 1] ![1, 0, 0, 1]).1
  obtain ⟨⟨chosen, hc⟩, hasc⟩ := LR.exFour_facts ![1, 1, 1, 1]
  obtain ⟨m, hm, e1, e2, e3⟩ := LR.exBuilt env henv (ty := "MNL") (cls := .mnl) (by decide) (by simp)
    (L := exOnes) rfl ha (withCoefs [] "x" [c] []) (by simp [exOnes, exFour, withCoefs])
    (by rcases hc12 with rfl | rfl <;> simp [SpecVal.ValidFor, withCoefs, groupIds])
    (by simp [specColumns, SpecVal.columns, withCoefs])
    (A := { exLogitArgs with specification := encodeAll (withCoefs [] "x" [c] []), names := none })
    (iref := .none) (sref := .none) rfl rfl (by simp) (by simp)
  obtain ⟨k, t, ht⟩ := LR.exIdentified hm e1 (s := withCoefs [] "x" [c] []) (by rw [e3]) (by simp [withCoefs])
    (by rw [e3]) (by rw [e3]; rfl) (by rw [e2, e3]; exact ha) (by rw [e2, e3]; exact ⟨_, hc⟩) (by rw [e2, e3]; exact hasc)
    (by rw [e2]; simp [exOnes, exFour]) (by
      rw [e2, e3]
      intro v hv
      have hv : ∀ r s : Fin 4, _ := hv
      have h := hv 0 1 (by simp [exOnes, exFour, exLogitArgs])
      funext i
      change Fin 1 at i
      fin_cases i
      rcases hc12 with rfl | rfl
      · simp [rowIndex, specColumns, SpecVal.columns, ColDesc.value, exOnes, exFour, withCoefs, exLogitArgs] at h
        exact h
      · simp [rowIndex, specColumns, SpecVal.columns, ColDesc.value, exOnes, exFour, withCoefs, exLogitArgs] at h
        exact h.symm)
    label sf
  refine ⟨m, k, t, hm, e1, ht, ?_⟩
  obtain ⟨g1, g2⟩ := exGlobal_minimising
  obtain ⟨-, n, x, U, L, hU, hL, -, h3, -, h4, -⟩ := LR.extract (s := withCoefs [] "x" [c] []) hm rfl ha
    (by simp [e1]) hc g1 rfl ht
  obtain ⟨L', -, -, l1, -, -, -, l2, -⟩ := fits_beat_equal_shares (s := withCoefs [] "x" [c] []) hm rfl ha
    (by simp [e1]) hc g1 g2 rfl ht
  rw [h3] at l1
  have l3 : LR.ll exOnes "obs" "y" (fun _ => 0) ≤ L := by
    rw [LR.flat_ll, Option.some.inj l1]
    exact le_of_sub_nonneg (nonneg_of_mul_nonneg_right l2 two_pos)
  have hL1 : L = LR.ll exOnes "obs" "y" (U x) := by rw [hL]; simp; rfl
  obtain ⟨p, q, -, p2, p3, p4, p5, p6⟩ := hU x
  have p1 : List.ofFn x = p.index := by rw [p5, p2.2 (.inl e1), p3.2 (.inl e1)]; rfl
  obtain ⟨θ, hθ⟩ : ∃ θ, p.index = [θ] := List.length_eq_one_iff.1 (by
    rw [p4]; simp [specColumns, SpecVal.columns, withCoefs])
  have hu : ∀ r : Fin 4, U x r = if exOnes.val "alt" r = c then θ else 0 := by
    intro r
    refine (p6 r).trans ?_
    rw [e1, hθ]
    fin_cases r <;> simp [rowUtility, callersIndex, rowIndex, specColumns, SpecVal.columns, ColDesc.value, exOnes, exFour,
      withCoefs, exLogitArgs]
  have hzero : θ = 0 := by
    have h := exOnes_best (u := U x) ((hu 2).trans (Eq.trans (by simp [exOnes, exFour]) (hu 0).symm))
      ((hu 3).trans (Eq.trans (by simp [exOnes, exFour]) (hu 1).symm)) (by rw [← hL1]; exact l3)
    have h := (congrArg clip700 (hu 0)).symm.trans (h.trans (congrArg clip700 (hu 1)))
    have h0 : clip700 (0 : ℝ) = 0 := Reference.clip_id (by norm_num)
    rcases hc12 with rfl | rfl
    · simp [exOnes, exFour, h0] at h
      exact clip_zero h
    · simp [exOnes, exFour, h0] at h
      exact clip_zero h.symm
  intro x' hx' κ hκ r
  rw [h4, p1, hθ, hzero] at hx'
  obtain rfl := Option.some.inj hx'
  have hκ : κ = 0 := by simpa using hκ
  have := LR.index_zero exOnes "alt" (specColumns [1, 2] (withCoefs [] "x" [c] [])) 1 r
  rw [show [(0 : ℝ)] = List.replicate 1 0 from rfl]
  rw [hκ]
  rw [show callersIndex exOnes "alt" (specColumns [1, 2] (withCoefs [] "x" [c] [])) (List.replicate 1 0) r = 0 from this]
  norm_num

end LeftOut

open LeftOut in
/-- Non-vacuity of `fits_ignore_left_out_alternative`: fits without ridge penalty of two models of two observations, one
with a constant for the first alternative and one with a constant for the second. -/
example (env : Env ℝ) (henv : env.badCol = fun _ => false) (label : PyVal ℝ → String) (sf : ℝ → ℝ) :
    ∃ m m' k k' t t',
      let f := fun m k => logitFitCall exGlobal m ⟨⟨some (List.replicate k 0), none, none, none⟩, none, none, false⟩
      let A := fun c : ℝ => { exLogitArgs with specification := encodeAll (withCoefs [] "x" [c] []), names := none }
      createChoiceModel env "MNL" exOnes (A 1) = .ok m ∧ createChoiceModel env "MNL" exOnes (A 2) = .ok m' ∧
      HoldsResultsOf label sf m (f m k) t ∧ HoldsResultsOf label sf m' (f m' k') t' ∧ FitEquallyWell t t' := by
  obtain ⟨m, k, t, hm, hcls, ht, hfar⟩ := exOnes_fit env henv label sf 1 (.inl rfl)
  obtain ⟨m', k', t', hm', hcls', ht', hfar'⟩ := exOnes_fit env henv label sf 2 (.inr rfl)
  obtain ⟨⟨chosen, hc⟩, -⟩ := LR.exFour_facts ![1, 1, 1, 1]
  obtain ⟨g1, g2⟩ := exGlobal_minimising
  refine ⟨m, m', k, k', t, t', hm, hm', ht, ht',
    fits_ignore_left_out_alternative (a := exLogitArgs) (pre := []) (post := []) (b := 2) (b' := 1) hm hm' hcls
      (exFour_ids ![1, 1, 1, 1] ![1, 0, 0, 1]).1 ?_ ?_ ?_ hc g1 g2 g1 g2 (by rfl) (by rfl) (by rfl) (.inl rfl) ht ht'
      hfar hfar'⟩
  · refine ⟨by simp, by simp, fun a => ?_⟩
    simp only [List.mem_cons, List.not_mem_nil, or_false]
    constructor
    · rintro rfl; norm_num
    · rintro ⟨rfl | rfl, h⟩
      · rfl
      · exact absurd rfl h
  · refine ⟨by simp, by simp, fun a => ?_⟩
    simp only [List.mem_cons, List.not_mem_nil, or_false]
    constructor
    · rintro rfl; norm_num
    · rintro ⟨rfl | rfl, h⟩
      · exact absurd rfl h
      · rfl
  · intro r r' _
    change Fin 4 at r r'
    fin_cases r <;> fin_cases r' <;> simp [callersValue, exOnes, exFour]

namespace LeftOut

/-- One observation of three alternatives with a variable that is two everywhere. -/
def exTwos : Frame ℝ where
  columns := ["obs", "alt", "x", "y"]
  numRows := 3
  val := fun c => if c = "alt" then ![1, 2, 3] else if c = "x" then ![2, 2, 2] else if c = "y" then ![1, 0, 0]
    else ![1, 1, 1]

theorem exTwos_alts : AltsOf exTwos "alt" [1, 2, 3] := by
  refine ⟨by norm_num, fun x => ⟨?_, ?_⟩⟩
  · intro hx
    simp only [List.mem_cons, List.not_mem_nil, or_false] at hx
    rcases hx with rfl | rfl | rfl
    · exact ⟨(0 : Fin 3), rfl⟩
    · exact ⟨(1 : Fin 3), rfl⟩
    · exact ⟨(2 : Fin 3), rfl⟩
  · rintro ⟨r, rfl⟩
    change Fin 3 at r
    fin_cases r <;> simp [exTwos]

/-- Coefficients 0, 5 and 7 for three alternatives. -/
def exCoefs (a : ℝ) : ℝ := if a = 1 then 0 else if a = 2 then 5 else 7

theorem exAllBut₁ : AllBut [1, 2, 3] 1 [2, 3] := by
  refine ⟨by simp, by norm_num, fun a => ?_⟩
  simp only [List.mem_cons, List.not_mem_nil, or_false]
  constructor
  · rintro (rfl | rfl) <;> norm_num
  · rintro ⟨rfl | h, h'⟩
    · exact absurd rfl h'
    · exact h

theorem exAllBut₃ : AllBut [1, 2, 3] 3 [1, 2] := by
  refine ⟨by simp, by norm_num, fun a => ?_⟩
  simp only [List.mem_cons, List.not_mem_nil, or_false]
  constructor
  · rintro (rfl | rfl) <;> norm_num
  · rintro ⟨rfl | rfl | rfl, h'⟩
    · exact .inl rfl
    · exact .inr rfl
    · exact absurd rfl h'

/-- The arguments of a model with coefficients of `x` for the alternatives in `l`. -/
def exArgs (l : List ℝ) : ModelArgs ℝ :=
  { exLogitArgs with specification := encodeAll (withCoefs [] "x" l []), names := none }

theorem exTwos_built (env : Env ℝ) (henv : env.badCol = fun _ => false) {l : List ℝ} (hne : l ≠ [])
    (hl : ∀ a ∈ l, a ∈ [(1 : ℝ), 2, 3]) :
    ∃ m, createChoiceModel env "MNL" exTwos (exArgs l) = .ok m ∧ m.cls = .mnl ∧ m.data = exTwos ∧ m.args = exArgs l :=
  LR.exBuilt env henv (ty := "MNL") (cls := .mnl) (by decide) (by simp) (L := exTwos) rfl exTwos_alts
    (withCoefs [] "x" l []) (by simp [exTwos, withCoefs]) (by simpa [SpecVal.ValidFor, withCoefs, groupIds] using hl)
    (by simpa [specColumns, SpecVal.columns, withCoefs] using hne)
    (A := exArgs l) (iref := .none) (sref := .none) rfl rfl (by simp) (by simp)

theorem exTwos_add (l : List ℝ) : addIntercept (encodeAll (withCoefs [] "x" l [])) exTwos = exTwos := by
  simp [addIntercept, encodeAll, withCoefs]

theorem exTwos_predicts (env : Env ℝ) {l : List ℝ} (hne : l ≠ []) (hl : ∀ a ∈ l, a ∈ [(1 : ℝ), 2, 3])
    {m : ChoiceModel ℝ} (hcls : m.cls = .mnl) (hargs : m.args = exArgs l) {p : ParamArrays} (hp : p.intercepts = none)
    (hlen : p.index.length = l.length) : ∃ res, predict env m p exTwos none true (some "y") = .ok res := by
  have hadd : addIntercept m.args.specification exTwos = exTwos := by rw [hargs]; exact exTwos_add l
  refine ⟨_, predict_succeeds env m (s := withCoefs [] "x" l []) (by rw [hargs]; rfl) (by rw [hargs]; rfl)
    (by rw [hargs]; rfl) p _ true (some "y") (alts := [1, 2, 3]) (q := ⟨fun _ => 0, fun _ => 0⟩)
    (by rw [hadd, hargs]; exact exTwos_alts) (by simp [hcls]) (by rw [hcls]; exact holds_mnl hp) ?_ ?_ ?_
    (by simpa [SpecVal.ValidFor, withCoefs, groupIds] using hl) (by simpa [specColumns, SpecVal.columns, withCoefs] using hne)
    (by rw [hlen]; simp [specColumns, SpecVal.columns, withCoefs]) ?_ (.inl rfl)⟩
  all_goals rw [hadd]
  · rw [hargs]; simp [exTwos, exLogitArgs, exArgs]
  · rw [hargs]; simp [exTwos, exLogitArgs, exArgs]
  · simp [exTwos, withCoefs]
  · simp [exTwos]

theorem exTwos_clip (r : Fin exTwos.numRows) :
    |rowIndex exTwos "alt" (specColumns [1, 2, 3] (withCoefs [] "x" [2, 3] [])) [5, 7] r| < 700 ∧
    |rowIndex exTwos "alt" (specColumns [1, 2, 3] (withCoefs [] "x" [2, 3] [])) [5, 7] r - exCoefs 3 * exTwos.val "x" r| <
      700 := by
  have hx : exTwos.val "x" r = 2 := by
    change Fin 3 at r
    fin_cases r <;> simp [exTwos]
  have h : ∃ w : ℝ, 0 ≤ w ∧ w ≤ 24 ∧
      rowIndex exTwos "alt" (specColumns [1, 2, 3] (withCoefs [] "x" [2, 3] [])) [5, 7] r = w := by
    refine ⟨_, ?_, ?_, rfl⟩ <;>
    · simp only [rowIndex, specColumns, SpecVal.columns, ColDesc.value, withCoefs, hx, List.nil_append, List.flatMap_cons,
        List.flatMap_nil, List.map_cons, List.map_nil, List.append_nil, List.zip_cons_cons, List.zip_nil_right, List.sum_cons,
        List.sum_nil]
      split_ifs <;> norm_num
  obtain ⟨w, h1, h2, h3⟩ := h
  rw [h3, hx, abs_lt, abs_lt]
  norm_num [exCoefs]
  exact ⟨⟨by linarith, by linarith⟩, by linarith, by linarith⟩

theorem exTwos_const (r r' : Fin exTwos.numRows) : exTwos.val "x" r = exTwos.val "x" r' := by
  change Fin 3 at r r'
  fin_cases r <;> fin_cases r' <;> simp [exTwos]

end LeftOut

open LeftOut in
/-- Non-vacuity of `logLik_ignores_left_out_alternative` and `predictions_ignore_left_out_alternative`: coefficients 5 and
7 of the second and third of three alternatives, and coefficients -7 and -2 of the first and second. -/
example (env : Env ℝ) (henv : env.badCol = fun _ => false) :
    ∃ m m' res res', createChoiceModel env "MNL" exTwos (exArgs [2, 3]) = .ok m ∧
      createChoiceModel env "MNL" exTwos (exArgs [1, 2]) = .ok m' ∧
      (fitInputs m' m'.data).logLik id .mnl .none .none ⟨[-7, -2], none, none, none⟩ =
        (fitInputs m m.data).logLik id .mnl .none .none ⟨[5, 7], none, none, none⟩ ∧
      predict env m ⟨[5, 7], none, none, none⟩ exTwos none true (some "y") = .ok res ∧
      predict env m' ⟨[-7, -2], none, none, none⟩ exTwos none true (some "y") = .ok res' ∧ HEq res' res := by
  obtain ⟨m, hm, c, d, e⟩ := exTwos_built env henv (l := [2, 3]) (by simp) (by simp)
  obtain ⟨m', hm', c', d', e'⟩ := exTwos_built env henv (l := [1, 2]) (by simp) (by simp)
  obtain ⟨res, h⟩ := exTwos_predicts env (by simp) (by simp) c e (p := ⟨[5, 7], none, none, none⟩) rfl rfl
  obtain ⟨res', h'⟩ := exTwos_predicts env (by simp) (by simp) c' e' (p := ⟨[-7, -2], none, none, none⟩) rfl rfl
  obtain ⟨cls, nm, dt, ds, ns, ar, ms⟩ := m
  obtain ⟨cls', nm', dt', ds', ns', ar', ms'⟩ := m'
  dsimp only at c d e c' d' e'
  subst c d e c' d' e'
  have i1 : [(5 : ℝ), 7] = [2, 3].map exCoefs := by norm_num [exCoefs]
  have i2 : [(-7 : ℝ), -2] = [1, 2].map fun a => exCoefs a - exCoefs 3 := by norm_num [exCoefs]
  refine ⟨_, _, res, res', hm, hm', ?_, h, h', ?_⟩
  · exact logLik_ignores_left_out_alternative (a := exLogitArgs) (pre := []) (post := []) (β₁ := []) (β₂ := [])
      (g := exCoefs) hm hm' rfl exTwos_alts exAllBut₁ exAllBut₃ (fun r r' _ => exTwos_const r r') rfl rfl
      (by simp [exCoefs]) rfl rfl (by simpa using i1) (by simpa using i2) exTwos_clip
  · exact predictions_ignore_left_out_alternative (a := exLogitArgs) (pre := []) (post := []) (β₁ := []) (β₂ := [])
      (g := exCoefs) (stored := ⟨[5, 7], none, none, none⟩) (stored' := ⟨[-7, -2], none, none, none⟩) (pl := none)
      (pl' := none) (all := [1, 2, 3]) hm hm' rfl (exTwos_add _).symm exTwos_alts (fun _ h => h) exAllBut₁ exAllBut₃
      (fun r r' _ => exTwos_const r r') rfl rfl (by simp [exCoefs]) rfl (by simpa using i1) (by simpa using i2) exTwos_clip
      h h'

end

end Pylogit
