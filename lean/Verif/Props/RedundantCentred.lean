import Verif.Props.RedundantVariables

/-!
# C134: with a ridge penalty, coefficients of all alternatives add up to zero
-/

namespace Pylogit

open Spec

namespace Redundant

open LeftOut

theorem sq_shift (κ : ℝ) (γ : List ℝ) :
    ((γ.map fun x => x - κ).map (· ^ 2)).sum = (γ.map (· ^ 2)).sum - 2 * κ * γ.sum + γ.length * κ ^ 2 := by
  induction γ with
  | nil => simp
  | cons c γ ih =>
    simp only [List.map_cons, List.sum_cons, List.length_cons, Nat.cast_add, Nat.cast_one, ih]
    ring

theorem mean_close {u w B : ℝ} : ∀ {γ : List ℝ}, γ ≠ [] → (∀ c ∈ γ, |u - c * w| < B) →
    |γ.length * u - γ.sum * w| < γ.length * B := by
  intro γ
  induction γ with
  | nil => intro h; exact absurd rfl h
  | cons c γ ih =>
    intro _ h
    have h1 := h c List.mem_cons_self
    have e : ((c :: γ).length : ℝ) * u - (c :: γ).sum * w = (u - c * w) + (γ.length * u - γ.sum * w) := by
      simp only [List.length_cons, List.sum_cons, Nat.cast_add, Nat.cast_one]; ring
    have e' : ((c :: γ).length : ℝ) * B = B + γ.length * B := by
      simp only [List.length_cons, Nat.cast_add, Nat.cast_one]; ring
    rw [e, e']
    by_cases hγ : γ = []
    · subst hγ
      simpa using h1
    · have h2 := ih hγ fun c hc => h c (List.mem_cons_of_mem _ hc)
      exact (abs_add_le _ _).trans_lt (add_lt_add h1 h2)

/-- Coefficients for all alternatives, moved together. -/
theorem index_centred (F : Frame ℝ) (alt v : String) (r : Fin F.numRows) {cols₁ cols₂ : List (ColDesc ℝ)} {l : List ℝ}
    (hn : l.Nodup) (hmem : F.val alt r ∈ l) {β₁ β₂ : List ℝ} (k : β₁.length = cols₁.length) (g : ℝ → ℝ) (κ : ℝ) :
    rowIndex F alt (cols₁ ++ (l.map (ColDesc.alt v) ++ cols₂)) (β₁ ++ ((l.map fun a => g a - κ) ++ β₂)) r =
      rowIndex F alt (cols₁ ++ (l.map (ColDesc.alt v) ++ cols₂)) (β₁ ++ (l.map g ++ β₂)) r - κ * F.val v r := by
  unfold rowIndex
  rw [List.zip_append k.symm, List.zip_append k.symm, List.zip_append (by simp), List.zip_append (by simp)]
  simp only [List.map_append, List.sum_append]
  rw [part_sum F alt v r _ hn, part_sum F alt v r _ hn, if_pos hmem, if_pos hmem]
  ring

end Redundant

open Redundant LeftOut in
/-- **C134** (coefficients of all alternatives with a ridge penalty). With a positive ridge penalty and an optimiser that
finds maxima, the estimates of the coefficients of a variable that has the same value in all rows of an observation, of
which there is one for each alternative and none is left out, add up to zero, unless a utility is clipped. -/
theorem ridge_centres_coefficients {env : Env ℝ} {ty : String} {df : Frame ℝ} {a : ModelArgs ℝ} {m : ChoiceModel ℝ}
    (hm : createChoiceModel env ty df a = .ok m) (hcls : m.cls = .mnl) {pre post : List (String × SpecVal ℝ)} {v : String}
    {w : SpecVal ℝ} {alts l : List ℝ} (hw : w = .allDiff ∧ l = alts ∨ w = .groups (l.map .inl) ∧ l.Nodup ∧ ∀ b ∈ alts, b ∈ l)
    (hspec : a.specification = encodeAll (pre ++ (v, w) :: post)) (ha : AltsOf df a.altIdCol alts)
    (hv : ∀ r r', df.val a.obsIdCol r = df.val a.obsIdCol r' → callersValue df v r = callersValue df v r')
    {chosen : ℝ → Fin df.numRows} (hc : OneChoicePerObs df a.obsIdCol a.choiceCol chosen)
    {solver : Solver} (hsol : FaithfulSolver solver) (hmin : MinimisingSolver solver) {label : PyVal ℝ → String}
    {sf : ℝ → ℝ} {args : FitArgs} (hpoint : args.justPoint = false) (hridge : 0 < args.ridge.getD 0)
    {t : FitAttrs} (ht : HoldsResultsOf label sf m (logitFitCall solver m args) t)
    (hclip : FarWithout df a.altIdCol (specColumns alts (pre ++ (v, w) :: post)) v t) :
    ∃ β₁ γ β₂, t.params.map Series.values = some (β₁ ++ (γ ++ β₂)) ∧ β₁.length = (specColumns alts pre).length ∧
      γ.length = l.length ∧ γ.sum = 0 := by
  have hl : l.Nodup ∧ ∀ b ∈ alts, b ∈ l := by
    rcases hw with ⟨-, rfl⟩ | ⟨-, h⟩
    · exact ⟨ha.ascending.imp fun h => h.ne, fun b hb => hb⟩
    · exact h
  have hcols : specColumns alts (pre ++ (v, w) :: post) =
      specColumns alts pre ++ (l.map (ColDesc.alt v) ++ specColumns alts post) := by
    rcases hw with ⟨rfl, rfl⟩ | ⟨rfl, -⟩ <;> simp [specColumns, SpecVal.columns, Function.comp_def]
  obtain ⟨-, -, -, -, -, halt, -⟩ := LR.built hm
  obtain ⟨hc2, n, x, U, L, hU, hL, -, -, -, g4, hmax⟩ := LR.extract hm hspec ha (by simp [hcls]) hc hsol hpoint ht
  obtain ⟨p, q, c1, c2, c3, c4, c5, c6⟩ := hU x
  have p1 : p.shapes = none := c2.2 (.inl hcls)
  have p2 : p.intercepts = none := c3.2 (.inl hcls)
  have hx : List.ofFn x = p.index := by rw [c5, p1, p2]; rfl
  obtain ⟨β₁, γ, β₂, hβ, k1, k2, k3⟩ : ∃ β₁ γ β₂ : List ℝ, p.index = β₁ ++ (γ ++ β₂) ∧
      β₁.length = (specColumns alts pre).length ∧ γ.length = l.length ∧ β₂.length = (specColumns alts post).length := by
    rw [hcols] at c4
    simp only [List.length_append, List.length_map] at c4
    refine ⟨p.index.take (specColumns alts pre).length, (p.index.drop (specColumns alts pre).length).take l.length,
      (p.index.drop (specColumns alts pre).length).drop l.length, ?_, ?_, ?_, ?_⟩
    · rw [List.take_append_drop, List.take_append_drop]
    · rw [List.length_take]; omega
    · rw [List.length_take, List.length_drop]; omega
    · rw [List.length_drop, List.length_drop]; omega
  refine ⟨β₁, γ, β₂, by rw [g4, hx, hβ], k1, k2, ?_⟩
  by_cases hne : γ = []
  · simp [hne]
  have hpos : (0 : ℝ) < γ.length := by exact_mod_cast List.length_pos_of_ne_nil hne
  set κ : ℝ := γ.sum / γ.length with hκ
  have hκ' : γ.sum = γ.length * κ := by rw [hκ]; field_simp
  clear_value κ
  obtain ⟨g, rfl⟩ := coefs_of_list hl.1 k2
  obtain ⟨y, y1, y2⟩ := LR.realise hc2 (fun r => (ha.mem _).2 ⟨r, rfl⟩) hU
    (p := { p with index := β₁ ++ ((l.map fun a => g a - κ) ++ β₂) }) (q := q)
    ⟨c1.noIcpt, c1.icpt, c1.shape, c1.eta⟩ c2 c3 (by rw [hcols]; simp [k1, k3])
  have h := hmax hmin y
  have hfar := hclip _ g4
  rw [hx] at hfar
  have hUx : ∀ r, U x r = callersIndex df a.altIdCol (specColumns alts (pre ++ (v, w) :: post)) p.index r := by
    intro r; rw [c6 r, hcls]; rfl
  have hUy : U y = fun r => U x r - κ * callersValue df v r := by
    funext r
    rw [y2 r, hcls, hUx r, hβ, hcols]
    have halt' : (if a.altIdCol = "intercept" ∧ "intercept" ∉ df.columns then 1 else df.val a.altIdCol r) =
        df.val a.altIdCol r := if_neg (by rintro ⟨e, h⟩; exact h (e ▸ halt))
    have := index_centred ⟨df.columns, df.numRows, fun c r => if c = "intercept" ∧ "intercept" ∉ df.columns then 1 else df.val c r⟩
      a.altIdCol v r (cols₁ := specColumns alts pre) (cols₂ := specColumns alts post) (β₂ := β₂) hl.1
      (by dsimp only; rw [halt']; exact hl.2 _ ((ha.mem _).2 ⟨r, rfl⟩)) k1 g κ
    unfold callersIndex callersValue
    simp only [rowUtility]
    rw [this]
  have hll : LR.ll df a.obsIdCol a.choiceCol (U y) = LR.ll df a.obsIdCol a.choiceCol (U x) := by
    unfold LR.ll
    rw [hUy, shifted_by]
    · intro r
      have := hfar 0 List.mem_cons_self r
      rwa [zero_mul, sub_zero, ← hUx r] at this
    · intro r
      have h1 := mean_close (u := U x r) (w := callersValue df v r) (B := 700) hne (fun c hc => by
        rw [hUx r]
        exact hfar c (List.mem_cons_of_mem _ (by
          rw [hβ]; exact List.mem_append_right _ (List.mem_append_left _ hc))) r)
      rw [hκ', mul_assoc, ← mul_sub, abs_mul, abs_of_pos hpos] at h1
      exact lt_of_mul_lt_mul_left h1 hpos.le
    · intro r r' e
      rw [hv r r' e]
  have hmap : (l.map fun a => g a - κ) = (l.map g).map fun x => x - κ := by simp
  have hsq : ∑ k, y k ^ 2 = ∑ k, x k ^ 2 - (l.map g).length * κ ^ 2 := by
    rw [LR.ofFn_sq, LR.ofFn_sq, y1, hx, hβ, p1, p2, hmap]
    simp only [Option.getD_none, List.nil_append, List.map_append, List.sum_append]
    rw [sq_shift, hκ']
    ring
  rw [hll, hL, hsq] at h
  have h1 : args.ridge.getD 0 * ((l.map g).length * κ ^ 2) ≤ 0 := by linarith
  have h2 : ((l.map g).length : ℝ) * κ ^ 2 ≤ 0 := nonpos_of_mul_nonpos_right h1 hridge
  have h3 : κ ^ 2 ≤ 0 := nonpos_of_mul_nonpos_right h2 hpos
  have h4 : κ = 0 := pow_eq_zero_iff (two_ne_zero) |>.1 (le_antisymm h3 (sq_nonneg κ))
  rw [hκ', h4, mul_zero]

open Redundant LeftOut in
/-- Non-vacuity: with ridge penalty 1, the estimates of the constants of both alternatives are opposite numbers. -/
example (env : Env ℝ) (henv : env.badCol = fun _ => false) (label : PyVal ℝ → String) (sf : ℝ → ℝ) :
    ∃ m k t c, createChoiceModel env "MNL" exOnes { exLogitArgs with specification := encodeAll [("x", .allDiff)] } = .ok m ∧
      HoldsResultsOf label sf m
        (logitFitCall exGlobal m ⟨⟨some (List.replicate k 0), none, none, none⟩, some 1, none, false⟩) t ∧
      t.params.map Series.values = some [c, -c] := by
  obtain ⟨m, hm, e1, e2, e3⟩ := exOnes_built env henv .allDiff (.inr rfl)
  obtain ⟨⟨chosen, hc⟩, hasc⟩ := LR.exFour_facts ![1, 1, 1, 1]
  have ha := (exFour_ids ![1, 1, 1, 1] ![1, 0, 0, 1]).1
  obtain ⟨k, t, ht⟩ := LR.exHolds hm (by simp [e1]) (s := [("x", .allDiff)]) (by rw [e3])
    (by simp) (by rw [e3]; rfl) (by rw [e2, e3]; exact ha) (by simp [e1])
    (by rw [e2, e3]; exact ⟨_, hc⟩) (by rw [e2, e3]; exact hasc) (by rw [e2]; simp [exOnes, exFour])
    (by simp [e1]) (by simp [e1]) label sf
  obtain ⟨g1, g2⟩ := exGlobal_minimising
  obtain ⟨-, n, x, U, L, hU, hL, -, h3, -, h4, -⟩ := LR.extract (s := [("x", .allDiff)]) hm rfl ha
    (by simp [e1]) hc g1 rfl ht
  obtain ⟨p, q, -, p2, p3, p4, p5, p6⟩ := hU x
  have p1 : List.ofFn x = p.index := by rw [p5, p2.2 (.inl e1), p3.2 (.inl e1)]; rfl
  obtain ⟨θ₁, θ₂, hθ⟩ : ∃ θ₁ θ₂, p.index = [θ₁, θ₂] := List.length_eq_two.1 (by
    rw [p4]; simp [specColumns, SpecVal.columns])
  have hclip : FarWithout exOnes "alt" (specColumns [1, 2] ([] ++ ("x", .allDiff) :: [])) "x" t := by
    obtain ⟨L', -, -, l1, -, -, -, l2, -⟩ := fits_beat_equal_shares (s := [("x", .allDiff)]) hm rfl ha
      (by simp [e1]) hc g1 g2 rfl ht
    rw [h3] at l1
    have l3 : LR.ll exOnes "obs" "y" (fun _ => 0) ≤ L := by
      rw [LR.flat_ll, Option.some.inj l1]
      exact le_of_sub_nonneg (nonneg_of_mul_nonneg_right l2 two_pos)
    have hL : L = LR.ll exOnes "obs" "y" (U x) - 1 * ∑ k, x k ^ 2 := hL
    have hneg : LR.ll exOnes "obs" "y" (U x) ≤ 0 := by
      refine (exOnes_ll (U x)).trans_le (add_nonpos ?_ ?_) <;>
        refine Real.log_nonpos (by positivity) ((div_le_one (by positivity)).2 ?_)
      · exact le_add_of_nonneg_right (Real.exp_pos _).le
      · exact le_add_of_nonneg_left (Real.exp_pos _).le
    have hflat : -2 ≤ LR.ll exOnes "obs" "y" fun _ => 0 := by
      refine le_of_le_of_eq ?_ (exOnes_ll fun _ => 0).symm
      have key : ∀ a : ℝ, 0 < a → a / (a + a) = 2⁻¹ := fun a ha => by field_simp; norm_num
      rw [key _ (Real.exp_pos _), Real.log_inv]
      have := Real.log_two_lt_d9
      linarith
    have hsq : θ₁ ^ 2 + θ₂ ^ 2 ≤ 2 := by
      rw [LR.ofFn_sq, p1, hθ] at hL
      simp only [List.map_cons, List.map_nil, List.sum_cons, List.sum_nil] at hL
      linarith
    have b1 : |θ₁| ≤ 2 := abs_le_of_sq_le_sq (by nlinarith [sq_nonneg θ₂]) (by norm_num)
    have b2 : |θ₂| ≤ 2 := abs_le_of_sq_le_sq (by nlinarith [sq_nonneg θ₁]) (by norm_num)
    intro x' hx' κ hκ r
    rw [h4, p1, hθ] at hx'
    obtain rfl := Option.some.inj hx'
    have hκ : |κ| ≤ 2 := by
      simp only [List.mem_cons, List.not_mem_nil, or_false] at hκ
      rcases hκ with rfl | rfl | rfl
      · simp
      · exact b1
      · exact b2
    have hi : |callersIndex exOnes "alt" (specColumns [1, 2] ([] ++ ("x", .allDiff) :: [])) [θ₁, θ₂] r| ≤ 2 := by
      change Fin 4 at r
      fin_cases r <;>
        simpa [callersIndex, rowIndex, specColumns, SpecVal.columns, ColDesc.value, exOnes, exFour] using by assumption
    have hv : callersValue exOnes "x" r = 1 := by
      change Fin 4 at r
      fin_cases r <;> simp [callersValue, exOnes, exFour]
    show |callersIndex exOnes "alt" (specColumns [1, 2] ([] ++ ("x", .allDiff) :: [])) [θ₁, θ₂] r -
      κ * callersValue exOnes "x" r| < 700
    rw [hv, mul_one]
    exact (abs_sub _ _).trans_lt (by linarith)
  obtain ⟨β₁, γ, β₂, q1, q2, q3, q4⟩ := ridge_centres_coefficients (pre := []) (post := []) (v := "x") hm e1
    (.inl ⟨rfl, rfl⟩) rfl ha (by
      intro r r' _
      exact exOnes_const r r') hc g1 g2 rfl (by simp) ht hclip
  refine ⟨m, k, t, θ₁, hm, ht, ?_⟩
  have e : β₁ = [] := List.length_eq_zero_iff.1 q2
  obtain ⟨c, d, rfl⟩ := List.length_eq_two.1 q3
  rw [h4, p1, hθ, e] at q1
  have q1 := Option.some.inj q1
  simp only [List.nil_append, List.cons_append, List.cons.injEq] at q1
  obtain ⟨rfl, rfl, -⟩ := q1
  rw [h4, p1, hθ]
  simp only [List.sum_cons, List.sum_nil, add_zero] at q4
  rw [eq_neg_of_add_eq_zero_right q4]

end Pylogit
