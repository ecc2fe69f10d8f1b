import Verif.Spec.LeftOut
import Verif.Props.ReferenceAlternative

/-!
# C133: which alternative's coefficient is left out does not matter
-/

namespace Pylogit

open Spec

namespace LeftOut

/-- Subtracting what is constant within observations. -/
theorem shifted_by {R O : Type} [Fintype R] [DecidableEq O] (f : R → O) (u δ : R → ℝ) (h : ∀ r, |u r| < 700)
    (h' : ∀ r, |u r - δ r| < 700) (hδ : ∀ r r', f r = f r' → δ r = δ r') :
    clippedLogit f (fun r => u r - δ r) = clippedLogit f u := by
  funext r
  unfold clippedLogit logitProb
  simp only [Reference.clip_id (h _), Reference.clip_id (h' _)]
  simp only [sub_eq_add_neg, Real.exp_add]
  have e : ∀ S : Finset R, (∀ i ∈ S, f i = f r) →
      ∑ i ∈ S, Real.exp (u i) * Real.exp (-δ i) = (∑ i ∈ S, Real.exp (u i)) * Real.exp (-δ r) := by
    intro S hS
    rw [Finset.sum_mul]
    exact Finset.sum_congr rfl fun i hi => by rw [hδ i r (hS i hi)]
  rw [e _ (by intro i hi; simpa using hi), mul_div_mul_right _ _ (Real.exp_ne_zero _)]

theorem coefs_of_list : ∀ {l γ : List ℝ}, l.Nodup → γ.length = l.length → ∃ g : ℝ → ℝ, γ = l.map g := by
  intro l
  induction l with
  | nil => intro γ _ h; exact ⟨fun _ => 0, by simpa using h⟩
  | cons a l ih =>
    intro γ hn h
    match γ, h with
    | c :: γ, h =>
      obtain ⟨g, rfl⟩ := ih (List.nodup_cons.1 hn).2 (by simpa using h)
      refine ⟨fun x => if x = a then c else g x, ?_⟩
      simp only [List.map_cons, if_true, List.cons.injEq, true_and]
      refine List.map_congr_left fun x hx => ?_
      rw [if_neg]
      rintro rfl
      exact (List.nodup_cons.1 hn).1 hx

theorem part_sum (F : Frame ℝ) (alt v : String) (r : Fin F.numRows) (g : ℝ → ℝ) : ∀ {l : List ℝ}, l.Nodup →
    (((l.map (ColDesc.alt v)).zip (l.map g)).map fun p => p.1.value F alt r * p.2).sum =
      if F.val alt r ∈ l then F.val v r * g (F.val alt r) else 0 := by
  intro l
  induction l with
  | nil => intro _; simp
  | cons a l ih =>
    intro hn
    obtain ⟨h1, h2⟩ := List.nodup_cons.1 hn
    simp only [List.map_cons, List.zip_cons_cons, List.sum_cons, ih h2, List.mem_cons]
    show (if F.val alt r = a then F.val v r else 0) * g a + _ = _
    by_cases e : F.val alt r = a
    · subst e
      simp [h1]
    · simp [e]

theorem part_left (F : Frame ℝ) (alt v : String) (r : Fin F.numRows) {g : ℝ → ℝ} {alts l : List ℝ} {b : ℝ}
    (h : AllBut alts b l) (hb : g b = 0) (hmem : F.val alt r ∈ alts) :
    (((l.map (ColDesc.alt v)).zip (l.map g)).map fun p => p.1.value F alt r * p.2).sum =
      F.val v r * g (F.val alt r) := by
  rw [part_sum F alt v r g h.nodup]
  split_ifs with hl
  · rfl
  · have : F.val alt r = b := by
      by_contra hne
      exact hl ((h.others _).2 ⟨hmem, hne⟩)
    rw [this, hb, mul_zero]

theorem columns_with (alts : List ℝ) (pre post : List (String × SpecVal ℝ)) (v : String) (l : List ℝ) :
    specColumns alts (withCoefs pre v l post) = specColumns alts pre ++ (l.map (ColDesc.alt v) ++ specColumns alts post) := by
  unfold specColumns withCoefs
  simp [SpecVal.columns, Function.comp_def]

theorem two_alternatives {alts : List ℝ} {b b' : ℝ} {l l' : List ℝ} (hn : alts.Nodup) (h : AllBut alts b l)
    (h' : AllBut alts b' l') (h2 : alts.length = 2) (g : ℝ → ℝ) (g0 : g b = 0) :
    ((l'.map fun a => g a - g b').map (· ^ 2)).sum = ((l.map g).map (· ^ 2)).sum := by
  classical
  have key : ∀ {c : ℝ} {k : List ℝ}, AllBut alts c k → k.Perm (alts.filter fun a => a ≠ c) := by
    intro c k hk
    refine (List.perm_ext_iff_of_nodup hk.nodup (hn.filter _)).2 fun a => ?_
    rw [hk.others]
    simp
  rw [(((key h').map fun a => g a - g b').map (· ^ 2)).sum_eq, (((key h).map g).map (· ^ 2)).sum_eq]
  have hb := h.mem
  have hb' := h'.mem
  match alts, h2 with
  | [x, y], _ =>
    have hxy : x ≠ y := by simpa using hn
    have hyx : y ≠ x := hxy.symm
    simp only [List.mem_cons, List.not_mem_nil, or_false] at hb hb'
    rcases hb with rfl | rfl <;> rcases hb' with rfl | rfl <;> simp [hxy, hyx, g0]

/-- Moving the left out coefficient subtracts a multiple of the variable from every index. -/
theorem moved {df : Frame ℝ} {alt v : String} (halt : alt ∈ df.columns) {alts : List ℝ} (ha : AltsOf df alt alts)
    {pre post : List (String × SpecVal ℝ)} {b b' : ℝ} {l l' : List ℝ} (h : AllBut alts b l) (h' : AllBut alts b' l')
    (β : List ℝ) (hβ : β.length = (specColumns alts (withCoefs pre v l post)).length) :
    ∃ β' : List ℝ, β'.length = (specColumns alts (withCoefs pre v l' post)).length ∧
      (alts.length = 2 → (β'.map (· ^ 2)).sum = (β.map (· ^ 2)).sum) ∧ ∃ κ ∈ 0 :: β, ∀ r,
        callersIndex df alt (specColumns alts (withCoefs pre v l' post)) β' r =
          callersIndex df alt (specColumns alts (withCoefs pre v l post)) β r - κ * callersValue df v r := by
  rw [columns_with] at hβ
  simp only [columns_with]
  obtain ⟨β1, γ, β3, rfl, k1, k2, k3⟩ : ∃ β1 γ β3 : List ℝ, β = β1 ++ (γ ++ β3) ∧
      (specColumns alts pre).length = β1.length ∧ γ.length = l.length ∧ β3.length = (specColumns alts post).length := by
    simp only [List.length_append, List.length_map] at hβ
    refine ⟨β.take (specColumns alts pre).length, (β.drop (specColumns alts pre).length).take l.length,
      (β.drop (specColumns alts pre).length).drop l.length, ?_, ?_, ?_, ?_⟩
    · rw [List.take_append_drop, List.take_append_drop]
    · rw [List.length_take]; omega
    · rw [List.length_take, List.length_drop]; omega
    · rw [List.length_drop, List.length_drop]; omega
  obtain ⟨g, rfl⟩ := coefs_of_list h.nodup k2
  have hbl : b ∉ l := fun hb => ((h.others b).1 hb).2 rfl
  set g0 : ℝ → ℝ := fun a => if a = b then 0 else g a with hg0
  have hgl : l.map g = l.map g0 := by
    refine List.map_congr_left fun a ha => ?_
    rw [hg0]
    dsimp only
    rw [if_neg]
    rintro rfl
    exact hbl ha
  have hgb : g0 b = 0 := by simp [hg0]
  rw [hgl]
  clear_value g0
  have hnd : alts.Nodup := ha.ascending.imp fun h => h.ne
  refine ⟨β1 ++ ((l'.map fun a => g0 a - g0 b') ++ β3), by simp [k1, k3], ?_, g0 b', ?_, fun r => ?_⟩
  · intro h2
    simp only [List.map_append, List.sum_append, two_alternatives hnd h h' h2 g0 hgb]
  · by_cases e : b' = b
    · rw [e, hgb]; exact List.mem_cons_self
    · have : b' ∈ l := (h.others b').2 ⟨h'.mem, e⟩
      exact List.mem_cons_of_mem _ (List.mem_append_right _ (List.mem_append_left _ (List.mem_map_of_mem this)))
  · have hmem : df.val alt r ∈ alts := (ha.mem _).2 ⟨r, rfl⟩
    unfold callersIndex rowIndex callersValue
    rw [List.zip_append k1, List.zip_append k1, List.zip_append (by simp), List.zip_append (by simp)]
    simp only [List.map_append, List.sum_append]
    have halt' : (if alt = "intercept" ∧ "intercept" ∉ df.columns then 1 else df.val alt r) = df.val alt r :=
      if_neg (by rintro ⟨rfl, h⟩; exact h halt)
    rw [part_left ⟨df.columns, df.numRows, fun c r => if c = "intercept" ∧ "intercept" ∉ df.columns then 1 else df.val c r⟩
      alt v r (g := g0) h hgb (by dsimp only; rw [halt']; exact hmem), part_left ⟨df.columns, df.numRows, fun c r =>
      if c = "intercept" ∧ "intercept" ∉ df.columns then 1 else df.val c r⟩ alt v r (g := fun a => g0 a - g0 b') h' (sub_self _)
      (by dsimp only; rw [halt']; exact hmem)]
    ring

theorem one_way {env env' : Env ℝ} {ty : String} {df : Frame ℝ} {a : ModelArgs ℝ} {m m' : ChoiceModel ℝ}
    {pre post : List (String × SpecVal ℝ)} {v : String} {l l' : List ℝ} {b b' : ℝ}
    {nm : Option (List (String × PyVal ℝ))} {s : List (String × SpecVal ℝ)} (hs : s = withCoefs pre v l post)
    (hm : createChoiceModel env ty df a = .ok m) (hspec : a.specification = encodeAll s)
    (hm' : createChoiceModel env' ty df { a with specification := encodeAll (withCoefs pre v l' post), names := nm } = .ok m')
    (hmnl : m.cls = .mnl) {alts : List ℝ} (ha : AltsOf df a.altIdCol alts) (hl : AllBut alts b l) (hl' : AllBut alts b' l')
    (hv : ∀ r r', df.val a.obsIdCol r = df.val a.obsIdCol r' → callersValue df v r = callersValue df v r')
    {chosen : ℝ → Fin df.numRows} (hc : OneChoicePerObs df a.obsIdCol a.choiceCol chosen)
    {solver solver' : Solver} (hsol : FaithfulSolver solver) (hsol' : FaithfulSolver solver')
    (hmin : MinimisingSolver solver')
    {label label' : PyVal ℝ → String} {sf sf' : ℝ → ℝ} {args args' : FitArgs} (hpoint : args.justPoint = false)
    (hpoint' : args'.justPoint = false) (hridge : args'.ridge = args.ridge)
    (hpen : args.ridge = none ∨ alts.length = 2)
    {t t' : FitAttrs} (ht : HoldsResultsOf label sf m (logitFitCall solver m args) t)
    (ht' : HoldsResultsOf label' sf' m' (logitFitCall solver' m' args') t')
    (hclip : FarWithout df a.altIdCol (specColumns alts s) v t) :
    FitsAtLeastAsWell t t' ∧ RhoAtLeast t t' := by
  obtain ⟨k1, k2, k3⟩ := LR.same_class hm hm'
  obtain ⟨-, -, -, -, -, halt, -⟩ := LR.built hm
  obtain ⟨hcls, n, x, U, L, hU, hL, g1, g2, g3, g4, -⟩ := LR.extract hm hspec ha (by simp [hmnl]) hc hsol hpoint ht
  obtain ⟨-, n', x', U', L', hU', -, g1', g2', g3', -, hmax⟩ :=
    LR.extract hm' rfl ha (by rw [k1]; simp [hmnl]) hc hsol' hpoint' ht'
  refine LR.better hc g1 g2 g3 g1' g2' g3' ?_
  obtain ⟨p, q, c1, c2, c3, c4, c5, c6⟩ := hU x
  have p1 : p.shapes = none := c2.2 (.inl hmnl)
  have p2 : p.intercepts = none := c3.2 (.inl hmnl)
  have hx : List.ofFn x = p.index := by rw [c5, p1, p2]; rfl
  subst hs
  obtain ⟨β', b1, b2, κ, b3, b4⟩ := moved (v := v) halt ha (pre := pre) (post := post) hl hl' p.index c4
  rw [k1, k2, k3] at hU'
  obtain ⟨y, y1, y2⟩ := LR.realise hcls (fun r => (ha.mem _).2 ⟨r, rfl⟩) hU' (p := { p with index := β' }) (q := q)
    ⟨c1.noIcpt, c1.icpt, c1.shape, c1.eta⟩ c2 c3 b1
  refine le_trans ?_ (hmax hmin y)
  have hfar := hclip _ g4
  rw [hx] at hfar
  have hUx : ∀ r, U x r = callersIndex df a.altIdCol (specColumns alts (withCoefs pre v l post)) p.index r := by
    intro r; rw [c6 r, hmnl]; rfl
  have hUy : U' y = fun r => U x r - κ * callersValue df v r := by
    funext r
    rw [y2 r, hmnl, hUx r, ← b4 r]; rfl
  have hll : LR.ll df a.obsIdCol a.choiceCol (U' y) = LR.ll df a.obsIdCol a.choiceCol (U x) := by
    unfold LR.ll
    rw [hUy, shifted_by]
    · intro r
      have := hfar 0 List.mem_cons_self r
      rwa [zero_mul, sub_zero, ← hUx r] at this
    · intro r
      rw [hUx r]
      exact hfar κ b3 r
    · intro r r' e
      rw [hv r r' e]
  have hsq : args.ridge.getD 0 * ∑ k, y k ^ 2 = args.ridge.getD 0 * ∑ k, x k ^ 2 := by
    rcases hpen with e | e
    · simp [e]
    · rw [LR.ofFn_sq, LR.ofFn_sq, y1, hx, ← b2 e]
      simp [p1, p2]
  rw [hL, hridge]
  show _ ≤ LR.ll df a.obsIdCol a.choiceCol (U' y) - _
  rw [hsq, hll]

end LeftOut

open LeftOut in
/-- **C133.** In a multinomial logit model, let a variable `v` have the same value in all rows of an observation, such as
the intercept or an attribute of the decision maker, and one coefficient for each alternative but one. Two models that
differ only in the alternative left out, in the order of the others and in the names fit equally well: they report the
same log-likelihood and rho-squared, if there is no ridge penalty or there are two alternatives and the same penalty, if
the optimisers find maxima and if no utility is clipped. -/
theorem fits_ignore_left_out_alternative {env env' : Env ℝ} {ty : String} {df : Frame ℝ} {a : ModelArgs ℝ}
    {m m' : ChoiceModel ℝ} {pre post : List (String × SpecVal ℝ)} {v : String} {l l' : List ℝ} {b b' : ℝ}
    {nm nm' : Option (List (String × PyVal ℝ))}
    (hm : createChoiceModel env ty df { a with specification := encodeAll (withCoefs pre v l post), names := nm } = .ok m)
    (hm' : createChoiceModel env' ty df { a with specification := encodeAll (withCoefs pre v l' post), names := nm' } = .ok m')
    (hmnl : m.cls = .mnl) {alts : List ℝ} (ha : AltsOf df a.altIdCol alts) (hl : AllBut alts b l) (hl' : AllBut alts b' l')
    (hv : ∀ r r', df.val a.obsIdCol r = df.val a.obsIdCol r' → callersValue df v r = callersValue df v r')
    {chosen : ℝ → Fin df.numRows} (hc : OneChoicePerObs df a.obsIdCol a.choiceCol chosen)
    {solver solver' : Solver} (hsol : FaithfulSolver solver) (hmin : MinimisingSolver solver)
    (hsol' : FaithfulSolver solver') (hmin' : MinimisingSolver solver')
    {label label' : PyVal ℝ → String} {sf sf' : ℝ → ℝ} {args args' : FitArgs} (hpoint : args.justPoint = false)
    (hpoint' : args'.justPoint = false) (hridge : args'.ridge = args.ridge)
    (hpen : args.ridge = none ∨ alts.length = 2)
    {t t' : FitAttrs} (ht : HoldsResultsOf label sf m (logitFitCall solver m args) t)
    (ht' : HoldsResultsOf label' sf' m' (logitFitCall solver' m' args') t')
    (hclip : FarWithout df a.altIdCol (specColumns alts (withCoefs pre v l post)) v t)
    (hclip' : FarWithout df a.altIdCol (specColumns alts (withCoefs pre v l' post)) v t') : FitEquallyWell t t' := by
  have hmnl' : m'.cls = .mnl := by rw [(LR.same_class hm hm').1, hmnl]
  obtain ⟨⟨L, L', l1, l2, l3, l4, hle⟩, ρ, ρ', r1, r2, hρ⟩ := one_way rfl hm rfl hm' hmnl ha hl hl' hv hc hsol hsol' hmin'
    hpoint hpoint' hridge hpen ht ht' hclip
  obtain ⟨⟨M', M, n1, n2, n3, n4, hle'⟩, σ', σ, s1, s2, hσ⟩ := one_way rfl hm' rfl hm hmnl' ha hl' hl hv hc hsol' hsol hmin
    hpoint' hpoint hridge.symm (by rw [hridge]; exact hpen) ht' ht hclip'
  rw [l2] at n1; rw [l1] at n2; rw [r2] at s1; rw [r1] at s2
  cases n1; cases n2; cases s1; cases s2
  obtain rfl : L = L' := by linarith
  obtain rfl : ρ = ρ' := by linarith
  exact ⟨L, ρ, l1, l2, l3, l4, r1, r2⟩

end Pylogit
