import Verif.Props.LeftOutCases

/-!
# C134: variables that cannot matter to the choice
-/

namespace Pylogit

open Spec

namespace Redundant

open LeftOut

/-- Coefficients that move the utilities of every observation alike. -/
theorem not_identified {df : Frame ℝ} {obs alt : String} {cols : List (ColDesc ℝ)} {β : List ℝ} (hlen : β.length = cols.length)
    (hone : (1 : ℝ) ∈ β) (h : ∀ r r', df.val obs r = df.val obs r' → rowIndex df alt cols β r = rowIndex df alt cols β r') :
    ¬ Identified df obs alt cols := by
  intro hid
  have e : List.ofFn (fun i : Fin cols.length => β[i.1]'(by rw [hlen]; exact i.2)) = β := by
    apply List.ext_getElem <;> simp [hlen]
  have h0 := hid (fun i => β[i.1]'(by rw [hlen]; exact i.2)) (by rw [e]; exact h)
  obtain ⟨i, hi, e1⟩ := List.getElem_of_mem hone
  have := congrFun h0 ⟨i, by rw [← hlen]; exact hi⟩
  simp [e1] at this

theorem zip_zeros (F : Frame ℝ) (alt : String) (r : Fin F.numRows) (cols : List (ColDesc ℝ)) (n : ℕ) :
    ((cols.zip (List.replicate n (0 : ℝ))).map fun p => p.1.value F alt r * p.2).sum = 0 := by
  refine List.sum_eq_zero fun x hx => ?_
  obtain ⟨p, hp, rfl⟩ := List.mem_map.1 hx
  rw [(List.mem_replicate.1 (List.of_mem_zip hp).2).2, mul_zero]

/-- A specification with one coefficient of the variable `v` for all alternatives. -/
theorem columns_same (alts : List ℝ) (pre post : List (String × SpecVal ℝ)) (v : String) :
    specColumns alts (pre ++ (v, .allSame) :: post) = specColumns alts pre ++ (.same v :: specColumns alts post) := by
  simp [specColumns, SpecVal.columns]

theorem index_same (F : Frame ℝ) (alt : String) (alts : List ℝ) (pre post : List (String × SpecVal ℝ)) (v : String)
    (r : Fin F.numRows) {β₁ β₂ : List ℝ} (h : β₁.length = (specColumns alts pre).length) (γ : ℝ) :
    rowIndex F alt (specColumns alts (pre ++ (v, .allSame) :: post)) (β₁ ++ γ :: β₂) r =
      rowIndex F alt (specColumns alts (pre ++ (v, .allSame) :: post)) (β₁ ++ 0 :: β₂) r + γ * F.val v r := by
  rw [columns_same]
  unfold rowIndex
  rw [List.zip_append h.symm, List.zip_append h.symm]
  simp only [List.zip_cons_cons, List.map_append, List.map_cons, List.sum_append, List.sum_cons, ColDesc.value]
  ring

/-- A stored fit has results, and identified columns. -/
theorem stored_identified {env : Env ℝ} {ty : String} {df : Frame ℝ} {a : ModelArgs ℝ} {m : ChoiceModel ℝ}
    (hm : createChoiceModel env ty df a = .ok m) (hcls : m.cls = .mnl) {s : List (String × SpecVal ℝ)}
    (hspec : m.args.specification = encodeAll s) (hkeys : (s.map Prod.fst).Nodup)
    (hnm : ∀ ns, m.args.names = some ns → (ns.map Prod.fst).Nodup)
    {alts : List ℝ} (ha : AltsOf m.data m.args.altIdCol alts)
    {chosen : ℝ → Fin m.data.numRows} (hc : OneChoicePerObs m.data m.args.obsIdCol m.args.choiceCol chosen)
    {solver : Solver} (label : PyVal ℝ → String) (sf : ℝ → ℝ) (before : List FitCall) {args : FitArgs}
    (hpoint : args.justPoint = false) (hridge : args.ridge.getD 0 = 0)
    (hst : (fitCall sf (mnlFitCall solver m args) (fitCalls sf before (freshFit label m))).2 = none) :
    Identified m.data m.args.obsIdCol m.args.altIdCol (specColumns alts s) := by
  obtain ⟨r, hr⟩ : ∃ r, mnlFit solver m args = .ok r := by
    have hst := hst
    unfold mnlFitCall at hst
    rw [hpoint] at hst
    cases hf : mnlFit solver m args with
    | error e => simp [hf, fitOutcome, fitCall] at hst
    | ok r => exact ⟨r, rfl⟩
  rcases (mnl_fit_stores_iff hm hcls hspec hkeys hnm ha hc label sf before args hpoint hridge.ge hr).1 hst with h | h
  · rw [hridge] at h; exact absurd h (lt_irrefl _)
  · exact h

end Redundant

open Redundant in
/-- **C134** (generic coefficients). If a variable has the same value in all rows of an observation and one coefficient
for all alternatives, no fit of a multinomial logit without ridge penalty stores its results, whatever the optimiser
does: `fit_mle` raises an exception. -/
theorem constant_variable_refused {env : Env ℝ} {ty : String} {df : Frame ℝ} {a : ModelArgs ℝ} {m : ChoiceModel ℝ}
    (hm : createChoiceModel env ty df a = .ok m) (hcls : m.cls = .mnl) {pre post : List (String × SpecVal ℝ)} {v : String}
    (hspec : m.args.specification = encodeAll (pre ++ (v, .allSame) :: post))
    (hkeys : ((pre ++ (v, SpecVal.allSame) :: post).map Prod.fst).Nodup)
    (hnm : ∀ ns, m.args.names = some ns → (ns.map Prod.fst).Nodup)
    {alts : List ℝ} (ha : AltsOf m.data m.args.altIdCol alts)
    (hv : ∀ r r', m.data.val m.args.obsIdCol r = m.data.val m.args.obsIdCol r' → m.data.val v r = m.data.val v r')
    {chosen : ℝ → Fin m.data.numRows} (hc : OneChoicePerObs m.data m.args.obsIdCol m.args.choiceCol chosen)
    {solver : Solver} (label : PyVal ℝ → String) (sf : ℝ → ℝ) (before : List FitCall) {args : FitArgs}
    (hpoint : args.justPoint = false) (hridge : args.ridge.getD 0 = 0) :
    (fitCall sf (mnlFitCall solver m args) (fitCalls sf before (freshFit label m))).2 ≠ none := by
  intro hst
  refine not_identified (β := List.replicate (specColumns alts pre).length 0 ++
    1 :: List.replicate (specColumns alts post).length 0) ?_ (by simp) ?_
    (stored_identified hm hcls hspec hkeys hnm ha hc label sf before hpoint hridge hst)
  · rw [columns_same]; simp
  · intro r r' e
    rw [index_same _ _ _ _ _ _ _ (by simp), index_same _ _ _ _ _ _ r' (by simp), hv r r' e]
    congr 1
    have z : ∀ r, rowIndex m.data m.args.altIdCol (specColumns alts (pre ++ (v, .allSame) :: post))
        (List.replicate (specColumns alts pre).length 0 ++ 0 :: List.replicate (specColumns alts post).length 0) r = 0 := by
      intro r
      rw [← List.replicate_succ, List.replicate_append_replicate]
      exact zip_zeros _ _ _ _ _
    rw [z, z]

open Redundant LeftOut in
/-- **C134** (a coefficient for every alternative). The same holds if the variable has a coefficient for each alternative
and none is left out. -/
theorem no_alternative_left_out_refused {env : Env ℝ} {ty : String} {df : Frame ℝ} {a : ModelArgs ℝ} {m : ChoiceModel ℝ}
    (hm : createChoiceModel env ty df a = .ok m) (hcls : m.cls = .mnl) {pre post : List (String × SpecVal ℝ)} {v : String}
    {w : SpecVal ℝ} {alts l : List ℝ} (hw : w = .allDiff ∧ l = alts ∨ w = .groups (l.map .inl) ∧ l.Nodup ∧ ∀ b ∈ alts, b ∈ l)
    (hspec : m.args.specification = encodeAll (pre ++ (v, w) :: post))
    (hkeys : ((pre ++ (v, w) :: post).map Prod.fst).Nodup)
    (hnm : ∀ ns, m.args.names = some ns → (ns.map Prod.fst).Nodup)
    (ha : AltsOf m.data m.args.altIdCol alts)
    (hv : ∀ r r', m.data.val m.args.obsIdCol r = m.data.val m.args.obsIdCol r' → m.data.val v r = m.data.val v r')
    {chosen : ℝ → Fin m.data.numRows} (hc : OneChoicePerObs m.data m.args.obsIdCol m.args.choiceCol chosen)
    (hrows : 0 < m.data.numRows)
    {solver : Solver} (label : PyVal ℝ → String) (sf : ℝ → ℝ) (before : List FitCall) {args : FitArgs}
    (hpoint : args.justPoint = false) (hridge : args.ridge.getD 0 = 0) :
    (fitCall sf (mnlFitCall solver m args) (fitCalls sf before (freshFit label m))).2 ≠ none := by
  intro hst
  have hl : l.Nodup ∧ ∀ b ∈ alts, b ∈ l := by
    rcases hw with ⟨-, rfl⟩ | ⟨-, h⟩
    · exact ⟨ha.ascending.imp fun h => h.ne, fun b hb => hb⟩
    · exact h
  have hcols : specColumns alts (pre ++ (v, w) :: post) =
      specColumns alts pre ++ (l.map (ColDesc.alt v) ++ specColumns alts post) := by
    rcases hw with ⟨rfl, rfl⟩ | ⟨rfl, -⟩ <;> simp [specColumns, SpecVal.columns, Function.comp_def]
  have hmem : ∀ r, m.data.val m.args.altIdCol r ∈ l := fun r => hl.2 _ ((ha.mem _).2 ⟨r, rfl⟩)
  refine not_identified (β := List.replicate (specColumns alts pre).length 0 ++
    ((l.map fun _ => 1) ++ List.replicate (specColumns alts post).length 0)) ?_ ?_ ?_
    (stored_identified hm hcls hspec hkeys hnm ha hc label sf before hpoint hridge hst)
  · rw [hcols]; simp
  · exact List.mem_append_right _ (List.mem_append_left _ (List.mem_map.2 ⟨_, hmem ⟨0, hrows⟩, rfl⟩))
  · have z : ∀ r, rowIndex m.data m.args.altIdCol (specColumns alts (pre ++ (v, w) :: post))
        (List.replicate (specColumns alts pre).length 0 ++
          ((l.map fun _ => 1) ++ List.replicate (specColumns alts post).length 0)) r = m.data.val v r := by
      intro r
      rw [hcols]
      unfold rowIndex
      rw [List.zip_append (by simp), List.zip_append (by simp)]
      simp only [List.map_append, List.sum_append, zip_zeros]
      rw [part_sum m.data m.args.altIdCol v r _ hl.1, if_pos (hmem r)]
      ring
    intro r r' e
    rw [z, z, hv r r' e]

open Redundant LeftOut in
/-- **C134** (with a ridge penalty). With a positive ridge penalty and an optimiser that finds maxima, the estimate of the
generic coefficient of a variable that has the same value in all rows of an observation is zero, unless a utility is
clipped. -/
theorem ridge_drops_constant_variable {env : Env ℝ} {ty : String} {df : Frame ℝ} {a : ModelArgs ℝ} {m : ChoiceModel ℝ}
    (hm : createChoiceModel env ty df a = .ok m) (hcls : m.cls = .mnl) {pre post : List (String × SpecVal ℝ)} {v : String}
    (hspec : a.specification = encodeAll (pre ++ (v, .allSame) :: post))
    {alts : List ℝ} (ha : AltsOf df a.altIdCol alts)
    (hv : ∀ r r', df.val a.obsIdCol r = df.val a.obsIdCol r' → callersValue df v r = callersValue df v r')
    {chosen : ℝ → Fin df.numRows} (hc : OneChoicePerObs df a.obsIdCol a.choiceCol chosen)
    {solver : Solver} (hsol : FaithfulSolver solver) (hmin : MinimisingSolver solver) {label : PyVal ℝ → String}
    {sf : ℝ → ℝ} {args : FitArgs} (hpoint : args.justPoint = false) (hridge : 0 < args.ridge.getD 0)
    {t : FitAttrs} (ht : HoldsResultsOf label sf m (logitFitCall solver m args) t)
    (hclip : FarWithout df a.altIdCol (specColumns alts (pre ++ (v, .allSame) :: post)) v t) :
    ∃ β₁ β₂, t.params.map Series.values = some (β₁ ++ 0 :: β₂) ∧ β₁.length = (specColumns alts pre).length ∧
      β₂.length = (specColumns alts post).length := by
  obtain ⟨hc2, n, x, U, L, hU, hL, -, -, -, g4, hmax⟩ := LR.extract hm hspec ha (by simp [hcls]) hc hsol hpoint ht
  obtain ⟨p, q, c1, c2, c3, c4, c5, c6⟩ := hU x
  have p1 : p.shapes = none := c2.2 (.inl hcls)
  have p2 : p.intercepts = none := c3.2 (.inl hcls)
  have hx : List.ofFn x = p.index := by rw [c5, p1, p2]; rfl
  obtain ⟨β₁, γ, β₂, hβ, k1, k2⟩ : ∃ (β₁ : List ℝ) (γ : ℝ) (β₂ : List ℝ), p.index = β₁ ++ γ :: β₂ ∧
      β₁.length = (specColumns alts pre).length ∧ β₂.length = (specColumns alts post).length := by
    rw [columns_same] at c4
    simp only [List.length_append, List.length_cons] at c4
    have hlt : (specColumns alts pre).length < p.index.length := by omega
    refine ⟨p.index.take (specColumns alts pre).length, p.index[(specColumns alts pre).length],
      p.index.drop ((specColumns alts pre).length + 1), ?_, ?_, ?_⟩
    · rw [← List.drop_eq_getElem_cons hlt, List.take_append_drop]
    · rw [List.length_take]; omega
    · rw [List.length_drop]; omega
  obtain ⟨y, y1, y2⟩ := LR.realise hc2 (fun r => (ha.mem _).2 ⟨r, rfl⟩) hU (p := { p with index := β₁ ++ 0 :: β₂ }) (q := q)
    ⟨c1.noIcpt, c1.icpt, c1.shape, c1.eta⟩ c2 c3 (by rw [columns_same]; simp [k1, k2])
  have h := hmax hmin y
  have hfar := hclip _ g4
  rw [hx] at hfar
  have hUx : ∀ r, U x r = callersIndex df a.altIdCol (specColumns alts (pre ++ (v, .allSame) :: post)) p.index r := by
    intro r; rw [c6 r, hcls]; rfl
  have hUy : U y = fun r => U x r - γ * callersValue df v r := by
    funext r
    rw [y2 r, hcls, hUx r, hβ]
    have := index_same ⟨df.columns, df.numRows, fun c r => if c = "intercept" ∧ "intercept" ∉ df.columns then 1 else df.val c r⟩
      a.altIdCol alts pre post v r k1 (β₂ := β₂) γ
    unfold callersIndex callersValue
    rw [this]
    simp [rowUtility]
  have hll : LR.ll df a.obsIdCol a.choiceCol (U y) = LR.ll df a.obsIdCol a.choiceCol (U x) := by
    unfold LR.ll
    rw [hUy, shifted_by]
    · intro r
      have := hfar 0 List.mem_cons_self r
      rwa [zero_mul, sub_zero, ← hUx r] at this
    · intro r
      rw [hUx r]
      exact hfar γ (by rw [hβ]; simp) r
    · intro r r' e
      rw [hv r r' e]
  have hsq : ∑ k, x k ^ 2 = ∑ k, y k ^ 2 + γ ^ 2 := by
    rw [LR.ofFn_sq, LR.ofFn_sq, y1, hx, hβ, p1, p2]
    simp
    ring
  rw [hll, hL, hsq] at h
  have hγ : γ = 0 := by
    have h1 : args.ridge.getD 0 * γ ^ 2 ≤ 0 := by linarith
    have h2 : γ ^ 2 ≤ 0 := nonpos_of_mul_nonpos_right h1 hridge
    exact pow_eq_zero_iff (two_ne_zero) |>.1 (le_antisymm h2 (sq_nonneg γ))
  exact ⟨β₁, β₂, by rw [g4, hx, hβ, hγ], k1, k2⟩

namespace Redundant

open LeftOut

theorem exOnes_const (r r' : Fin exOnes.numRows) : exOnes.val "x" r = exOnes.val "x" r' := by
  change Fin 4 at r r'
  fin_cases r <;> fin_cases r' <;> simp [exOnes, exFour]

theorem exOnes_built (env : Env ℝ) (henv : env.badCol = fun _ => false) (w : SpecVal ℝ) (hw : w = .allSame ∨ w = .allDiff) :
    ∃ m, createChoiceModel env "MNL" exOnes { exLogitArgs with specification := encodeAll [("x", w)] } = .ok m ∧
      m.cls = .mnl ∧ m.data = exOnes ∧ m.args = { exLogitArgs with specification := encodeAll [("x", w)] } :=
  LR.exBuilt env henv (ty := "MNL") (cls := .mnl) (by decide) (by simp) (L := exOnes) rfl (exFour_ids _ _).1 [("x", w)]
    (by simp [exOnes, exFour]) (by rcases hw with rfl | rfl <;> simp [SpecVal.ValidFor])
    (by rcases hw with rfl | rfl <;> simp [specColumns, SpecVal.columns])
    (A := { exLogitArgs with specification := encodeAll [("x", w)] }) (iref := .none) (sref := .none) rfl rfl (by simp) (by simp)

end Redundant

open Redundant LeftOut in
/-- Non-vacuity of `constant_variable_refused`: a constant as the only variable, with one coefficient. -/
example (env : Env ℝ) (henv : env.badCol = fun _ => false) (label : PyVal ℝ → String) (sf : ℝ → ℝ) :
    ∃ m, createChoiceModel env "MNL" exOnes { exLogitArgs with specification := encodeAll [("x", .allSame)] } = .ok m ∧
      (fitCall sf (mnlFitCall exGlobal m ⟨⟨some [0], none, none, none⟩, none, none, false⟩)
        (fitCalls sf [] (freshFit label m))).2 ≠ none := by
  obtain ⟨m, hm, e1, e2, e3⟩ := exOnes_built env henv .allSame (.inl rfl)
  obtain ⟨⟨chosen, hc⟩, -⟩ := LR.exFour_facts ![1, 1, 1, 1]
  refine ⟨m, hm, ?_⟩
  obtain ⟨cls, nm, dt, ds, ns, ar, ms⟩ := m
  dsimp only at e1 e2 e3
  subst e1 e2 e3
  exact constant_variable_refused (pre := []) (post := []) (v := "x") (alts := [1, 2]) hm rfl rfl (by simp)
    (by simp [exLogitArgs]) (exFour_ids _ _).1 (fun r r' _ => exOnes_const r r') hc label sf [] rfl rfl

open Redundant LeftOut in
/-- Non-vacuity of `no_alternative_left_out_refused`: a constant for each alternative. -/
example (env : Env ℝ) (henv : env.badCol = fun _ => false) (label : PyVal ℝ → String) (sf : ℝ → ℝ) :
    ∃ m, createChoiceModel env "MNL" exOnes { exLogitArgs with specification := encodeAll [("x", .allDiff)] } = .ok m ∧
      (fitCall sf (mnlFitCall exGlobal m ⟨⟨some [0, 0], none, none, none⟩, none, none, false⟩)
        (fitCalls sf [] (freshFit label m))).2 ≠ none := by
  obtain ⟨m, hm, e1, e2, e3⟩ := exOnes_built env henv .allDiff (.inr rfl)
  obtain ⟨⟨chosen, hc⟩, -⟩ := LR.exFour_facts ![1, 1, 1, 1]
  refine ⟨m, hm, ?_⟩
  obtain ⟨cls, nm, dt, ds, ns, ar, ms⟩ := m
  dsimp only at e1 e2 e3
  subst e1 e2 e3
  exact no_alternative_left_out_refused (pre := []) (post := []) (v := "x") (alts := [1, 2]) hm rfl (.inl ⟨rfl, rfl⟩) rfl
    (by simp) (by simp [exLogitArgs]) (exFour_ids _ _).1 (fun r r' _ => exOnes_const r r') hc
    (by simp [exOnes, exFour]) label sf [] rfl rfl

open Redundant LeftOut in
/-- Non-vacuity of `ridge_drops_constant_variable`: with ridge penalty 1, the estimate of the constant is zero. -/
example (env : Env ℝ) (henv : env.badCol = fun _ => false) (label : PyVal ℝ → String) (sf : ℝ → ℝ) :
    ∃ m k t, createChoiceModel env "MNL" exOnes { exLogitArgs with specification := encodeAll [("x", .allSame)] } = .ok m ∧
      HoldsResultsOf label sf m
        (logitFitCall exGlobal m ⟨⟨some (List.replicate k 0), none, none, none⟩, some 1, none, false⟩) t ∧
      t.params.map Series.values = some [0] := by
  obtain ⟨m, hm, e1, e2, e3⟩ := exOnes_built env henv .allSame (.inl rfl)
  obtain ⟨⟨chosen, hc⟩, hasc⟩ := LR.exFour_facts ![1, 1, 1, 1]
  have ha := (exFour_ids ![1, 1, 1, 1] ![1, 0, 0, 1]).1
  obtain ⟨k, t, ht⟩ := LR.exHolds hm (by simp [e1]) (s := [("x", .allSame)]) (by rw [e3])
    (by simp) (by rw [e3]; rfl) (by rw [e2, e3]; exact ha) (by simp [e1])
    (by rw [e2, e3]; exact ⟨_, hc⟩) (by rw [e2, e3]; exact hasc) (by rw [e2]; simp [exOnes, exFour])
    (by simp [e1]) (by simp [e1]) label sf
  obtain ⟨g1, g2⟩ := exGlobal_minimising
  refine ⟨m, k, t, hm, ht, ?_⟩
  obtain ⟨β₁, β₂, h1, h2, h3⟩ := ridge_drops_constant_variable (pre := []) (post := []) (v := "x") hm e1 rfl ha (by
    intro r r' _
    exact exOnes_const r r') hc g1 g2 rfl (by simp) ht (by
    obtain ⟨-, n, x, U, L, hU, hL, -, h3, -, h4, -⟩ := LR.extract (s := [("x", .allSame)]) hm rfl ha
      (by simp [e1]) hc g1 rfl ht
    obtain ⟨L', -, -, l1, -, -, -, l2, -⟩ := fits_beat_equal_shares (s := [("x", .allSame)]) hm rfl ha
      (by simp [e1]) hc g1 g2 rfl ht
    rw [h3] at l1
    have l3 : LR.ll exOnes "obs" "y" (fun _ => 0) ≤ L := by
      rw [LR.flat_ll, Option.some.inj l1]
      exact le_of_sub_nonneg (nonneg_of_mul_nonneg_right l2 two_pos)
    have hL : L = LR.ll exOnes "obs" "y" (U x) - 1 * ∑ k, x k ^ 2 := hL
    obtain ⟨p, q, -, p2, p3, p4, p5, p6⟩ := hU x
    have p1 : List.ofFn x = p.index := by rw [p5, p2.2 (.inl e1), p3.2 (.inl e1)]; rfl
    obtain ⟨θ, hθ⟩ : ∃ θ, p.index = [θ] := List.length_eq_one_iff.1 (by
      rw [p4]; simp [specColumns, SpecVal.columns])
    have hu : ∀ r : Fin 4, U x r = θ := by
      intro r
      refine (p6 r).trans ?_
      rw [e1, hθ]
      fin_cases r <;> simp [rowUtility, callersIndex, rowIndex, specColumns, SpecVal.columns, ColDesc.value, exOnes, exFour]
    have hflat : LR.ll exOnes "obs" "y" (U x) = LR.ll exOnes "obs" "y" fun _ => 0 := by
      refine (exOnes_ll (U x)).trans (Eq.trans ?_ (exOnes_ll fun _ => 0).symm)
      rw [hu 0, hu 1, hu 2, hu 3]
      have key : ∀ a : ℝ, 0 < a → a / (a + a) = 1 / 2 := fun a ha => by field_simp; norm_num
      rw [key _ (Real.exp_pos _), key _ (Real.exp_pos _)]
    have hzero : θ = 0 := by
      rw [LR.ofFn_sq, p1, hθ] at hL
      simp at hL
      have : θ ^ 2 ≤ 0 := by linarith
      exact pow_eq_zero_iff (two_ne_zero) |>.1 (le_antisymm this (sq_nonneg θ))
    intro x' hx' κ hκ r
    rw [h4, p1, hθ, hzero] at hx'
    obtain rfl := Option.some.inj hx'
    have hκ : κ = 0 := by simpa using hκ
    show |callersIndex exOnes "alt" (specColumns [1, 2] ([] ++ ("x", .allSame) :: [])) [0] r - κ * callersValue exOnes "x" r| <
      700
    rw [hκ, show callersIndex exOnes "alt" (specColumns [1, 2] ([] ++ ("x", .allSame) :: [])) [0] r = 0 from
      LR.index_zero exOnes "alt" (specColumns [1, 2] [("x", .allSame)]) 1 r]
    norm_num)
  have e1 : β₁ = [] := List.length_eq_zero_iff.1 h2
  have e2 : β₂ = [] := List.length_eq_zero_iff.1 h3
  rw [h1, e1, e2]
  rfl

end Pylogit
