import Verif.Props.UnitsCases

/-!
# C127: a ridge penalty depends on the units
-/

open Finset Matrix Function

namespace Pylogit

open Spec

noncomputable section

section Derivs

variable {n : ℕ}

private lemma penalty_partials (ρ : ℝ) (x : Fin n → ℝ) :
    HasPartials (fun θ : Fin n → ℝ => ρ * ∑ k, θ k ^ 2) (fun j => 2 * ρ * x j) x := by
  intro j
  have h : ∀ t, ρ * ∑ k, update x j t k ^ 2 = ρ * (t ^ 2 + ∑ k ∈ univ.erase j, x k ^ 2) := fun t => by
    rw [← Finset.add_sum_erase _ _ (mem_univ j), update_self]
    congr 2
    refine Finset.sum_congr rfl fun k hk => ?_
    rw [update_of_ne (Finset.ne_of_mem_erase hk)]
  simp only [h]
  have h1 : HasDerivAt (fun t : ℝ => t ^ 2) (2 * x j) (x j) := by simpa using hasDerivAt_pow 2 (x j)
  have h2 := (h1.add_const (∑ k ∈ univ.erase j, x k ^ 2)).const_mul ρ
  rwa [show ρ * (2 * x j) = 2 * ρ * x j by ring] at h2

private lemma partials_zero {F : (Fin n → ℝ) → ℝ} {g x : Fin n → ℝ} (h : HasPartials F g x) (hmax : ∀ y, F y ≤ F x)
    (j : Fin n) : g j = 0 := by
  have hl : IsLocalMax (fun t => F (update x j t)) (x j) :=
    Filter.Eventually.of_forall fun t => by
      show F (update x j t) ≤ F (update x j (x j))
      rw [update_eq_self]
      exact hmax _
  exact hl.hasDerivAt_eq_zero (h j)

private lemma ridge_units {F F' : (Fin n → ℝ) → ℝ} {κ x x' g g' : Fin n → ℝ} {ρ : ℝ} (hρ : ρ ≠ 0)
    (hκ : ∀ j, κ j ≠ 0) (hF : ∀ θ, F' θ = F fun j => κ j * θ j)
    (h : HasPartials (fun θ => F θ - ρ * ∑ k, θ k ^ 2) g x) (h' : HasPartials (fun θ => F' θ - ρ * ∑ k, θ k ^ 2) g' x')
    (hmax : ∀ y, F y - ρ * ∑ k, y k ^ 2 ≤ F x - ρ * ∑ k, x k ^ 2)
    (hmax' : ∀ y, F' y - ρ * ∑ k, y k ^ 2 ≤ F' x' - ρ * ∑ k, x' k ^ 2)
    (hx : ∀ j, x' j = (κ j)⁻¹ * x j) (j : Fin n) (hj : κ j ^ 2 ≠ 1) : x j = 0 := by
  have key : ∀ {G : (Fin n → ℝ) → ℝ} {y q : Fin n → ℝ}, HasPartials (fun θ => G θ - ρ * ∑ k, θ k ^ 2) q y →
      (∀ z, G z - ρ * ∑ k, z k ^ 2 ≤ G y - ρ * ∑ k, y k ^ 2) → HasPartials G (fun i => 2 * ρ * y i) y := by
    intro G y q hq hm i
    have h1 := (hq i).add (penalty_partials ρ y i)
    rw [partials_zero hq hm i, zero_add] at h1
    refine h1.congr_of_eventuallyEq (Filter.Eventually.of_forall fun t => ?_)
    simp
  have e := partials_scaled hF (fun i => by rw [hx, mul_inv_cancel_left₀ (hκ i)]) (key h hmax) (key h' hmax') j
  rw [hx] at e
  have hk := hκ j
  have h3 : x j * (κ j ^ 2 - 1) = 0 := by
    field_simp at e
    linarith
  exact (mul_eq_zero.1 h3).resolve_right (sub_ne_zero.2 hj)

end Derivs

/-- **C127** needs that there is no penalty. Build a multinomial logit on a table, and another one on the same table with
some variables in other units, and let both objects hold the results of fits with the same ridge penalty, which is not
zero, by optimisers that find global maxima, without fixed parameters and without clipping at the estimates. If the
estimates are the same in the other units, then those of all columns whose unit has changed by more than its sign are
zero. -/
theorem fit_units_ridge {env : Env ℝ} {ty : String} {df : Frame ℝ} {a : ModelArgs ℝ} {m m' : ChoiceModel ℝ}
    {k : String → ℝ} (hk : OnlyVariables a k) (hm : createChoiceModel env ty df a = .ok m)
    (hm' : createChoiceModel env ty (inUnits df k) a = .ok m') (hcls : m.cls = .mnl)
    {s : List (String × SpecVal ℝ)} (hspec : m.args.specification = encodeAll s)
    {alts ids : List ℝ} (ha : AltsOf m.data m.args.altIdCol alts) (hids : AltsOf m.data m.args.obsIdCol ids)
    {chosen : ℝ → Fin m.data.numRows} (hc : OneChoicePerObs m.data m.args.obsIdCol m.args.choiceCol chosen)
    {solver solver' : Solver} (hsol : FaithfulSolver solver) (hsol' : FaithfulSolver solver')
    (hmin : MinimisingSolver solver) (hmin' : MinimisingSolver solver') (label : PyVal ℝ → String) (sf : ℝ → ℝ)
    {args args' : FitArgs} (hpoint : args.justPoint = false) (hpoint' : args'.justPoint = false)
    {ρ : ℝ} (hρ : ρ ≠ 0) (hridge : args.ridge = some ρ) (hridge' : args'.ridge = some ρ) {t t' : FitAttrs}
    (ht : HoldsResultsOf label sf m (mnlFitCall solver m args) t)
    (ht' : HoldsResultsOf label sf m' (mnlFitCall solver' m' args') t')
    (hin : UnclippedFit m.data m.args.altIdCol (specColumns alts s) t)
    (hin' : UnclippedFit m'.data m'.args.altIdCol (specColumns alts s) t')
    {L L' : List String} {x x' : Fin (specColumns alts s).length → ℝ} (hx : t.params = some ⟨L, List.ofFn x⟩)
    (hx' : t'.params = some ⟨L', List.ofFn x'⟩)
    (hunits : ∀ j, x' j = (k (specColumns alts s)[j].ofVariable)⁻¹ * x j)
    (j : Fin (specColumns alts s).length) (hj : k (specColumns alts s)[j].ofVariable ≠ 1)
    (hj' : k (specColumns alts s)[j].ofVariable ≠ -1) : x j = 0 := by
  obtain ⟨e1, e2, e3, hk'⟩ := built_inUnits hk hm hm'
  obtain ⟨before, after, hst, hafter, rfl⟩ := ht
  obtain ⟨before', after', hst', hafter', rfl⟩ := ht'
  obtain ⟨cls', dn', data', des', ivn', args₂, mp'⟩ := m'
  dsimp only at e1 e2 e3 hin'
  subst e1 e2 e3
  have ha' : AltsOf (inUnits m.data k) m.args.altIdCol alts := by
    obtain ⟨a1, a2⟩ := ha
    exact ⟨a1, by rw [same_val hk'.alt]; exact a2⟩
  have hids' : AltsOf (inUnits m.data k) m.args.obsIdCol ids := by
    obtain ⟨a1, a2⟩ := hids
    exact ⟨a1, by rw [same_val hk'.obs]; exact a2⟩
  have hc' : OneChoicePerObs (inUnits m.data k) m.args.obsIdCol m.args.choiceCol chosen := by
    obtain ⟨c1, c2, c3⟩ := hc
    constructor <;> (try rw [same_val hk'.obs]) <;> (try rw [same_val hk'.choice]) <;> assumption
  obtain ⟨n, z, labels, H, F, hn, -, -, hrep, hmax, hder, -, -⟩ :=
    mnl_fit_report hm hcls hspec ha hids hc hsol label sf before after args hpoint hst hafter
  obtain ⟨n', z', labels', H', F', hn', -, -, hrep', hmax', hder', -, -⟩ :=
    mnl_fit_report hm' hcls hspec ha' hids' hc' hsol' label sf before' after' args' hpoint' hst' hafter'
  subst hn hn'
  obtain rfl : z = x := by
    have := (Option.some.inj (hrep.statistics.params.symm.trans hx))
    exact List.ofFn_injective (congrArg Series.values this)
  obtain rfl : z' = x' := by
    have := (Option.some.inj (hrep'.statistics.params.symm.trans hx'))
    exact List.ofFn_injective (congrArg Series.values this)
  have u1 := hin _ _ hx
  have u2 := hin' _ _ hx'
  obtain ⟨⟨⟨g, -, hg⟩, -⟩, -⟩ := hder u1
  obtain ⟨⟨⟨g', -, hg'⟩, -⟩, -⟩ := hder' u2
  have hmx := hmax hmin
  have hmx' := hmax' hmin'
  rw [hridge] at hg hmx
  rw [hridge'] at hg' hmx'
  have hU : ∀ θ : Fin (specColumns alts s).length → ℝ,
      (fun r => rowIndex (inUnits m.data k) m.args.altIdCol (specColumns alts s) (List.ofFn θ) r) =
        fun r => rowIndex m.data m.args.altIdCol (specColumns alts s)
          (List.ofFn fun j => k (specColumns alts s)[j].ofVariable * θ j) r := fun θ => by
    have e1 := described_dot (df := inUnits m.data k) (altCol := m.args.altIdCol) rfl θ
    have e2 := described_dot (df := m.data) (altCol := m.args.altIdCol) (cols := specColumns alts s) rfl
      fun j => k (specColumns alts s)[j].ofVariable * θ j
    refine e1.symm.trans (Eq.trans ?_ e2)
    funext r
    show ∑ j, describedMatrix (inUnits m.data k) m.args.altIdCol (specColumns alts s) _ r j * θ j =
      ∑ j, describedMatrix m.data m.args.altIdCol (specColumns alts s) _ r j * _
    refine Finset.sum_congr rfl fun j _ => ?_
    rw [described_inUnits m.data hk'.alt (specColumns alts s) r j]
    ring
  refine ridge_units (F := fun θ => clippedLogLik (m.data.val m.args.obsIdCol) (m.data.val m.args.choiceCol)
      fun r => rowIndex m.data m.args.altIdCol (specColumns alts s) (List.ofFn θ) r)
    (F' := fun θ => clippedLogLik ((inUnits m.data k).val m.args.obsIdCol) ((inUnits m.data k).val m.args.choiceCol)
      fun r => rowIndex (inUnits m.data k) m.args.altIdCol (specColumns alts s) (List.ofFn θ) r)
    hρ (κ := fun j => k (specColumns alts s)[j].ofVariable) (fun j => hk'.nonzero _) (fun θ => ?_) hg hg' hmx hmx' hunits j ?_
  · beta_reduce
    rw [hU, same_val hk'.obs, same_val hk'.choice]
    rfl
  · intro h
    rcases mul_self_eq_one_iff.1 ((sq _).symm.trans h) with h | h
    exacts [hj h, hj' h]

namespace Units

private lemma clip_id {u : ℝ} (h1 : -700 ≤ u) (h2 : u ≤ 700) : clip700 u = u := by
  unfold clip700
  rw [min_eq_left h2, max_eq_right h1]

private lemma descent {c ρ : ℝ} (hc : c ≠ 0) (hρ : 0 < ρ) : ∃ t : ℝ, -3 * Real.log (1 + 1 + 1) <
    -3 * Real.log (1 + Real.exp (clip700 (-c * t)) + Real.exp (clip700 (2 * c * t))) - ρ * t ^ 2 := by
  have hc2 : 0 < c ^ 2 := by positivity
  have hb : 0 < 5 + ρ / c ^ 2 := by positivity
  -- a small step against the direction of growth
  obtain ⟨ε, h0, h1, h2⟩ : ∃ ε : ℝ, 0 < ε ∧ ε ≤ 1 / 10 ∧ ε * (5 + ρ / c ^ 2) < 1 := by
    refine ⟨1 / (2 * (5 + ρ / c ^ 2)), by positivity, ?_, ?_⟩
    · have : 0 < ρ / c ^ 2 := by positivity
      exact one_div_le_one_div_of_le (by norm_num) (by linarith)
    · field_simp
      norm_num
  refine ⟨-ε / c, ?_⟩
  have e1 : clip700 (-c * (-ε / c)) = ε := by
    have : -c * (-ε / c) = ε := by field_simp
    rw [this]
    exact clip_id (by linarith) (by linarith)
  have e2 : clip700 (2 * c * (-ε / c)) = -(2 * ε) := by
    have : 2 * c * (-ε / c) = -(2 * ε) := by field_simp
    rw [this]
    exact clip_id (by linarith) (by linarith)
  rw [e1, e2]
  have a1 := abs_le.1 (Real.abs_exp_sub_one_sub_id_le (x := ε) (by rw [abs_le]; constructor <;> linarith))
  have a2 := abs_le.1 (Real.abs_exp_sub_one_sub_id_le (x := -(2 * ε)) (by rw [abs_le]; constructor <;> linarith))
  have hS : 1 + Real.exp ε + Real.exp (-(2 * ε)) ≤ 3 - ε + 5 * ε ^ 2 := by nlinarith [a1.2, a2.2]
  have hpos : 0 < 1 + Real.exp ε + Real.exp (-(2 * ε)) := by positivity
  have hlog := Real.log_le_sub_one_of_pos (x := (1 + Real.exp ε + Real.exp (-(2 * ε))) / 3) (by positivity)
  rw [Real.log_div hpos.ne' (by norm_num)] at hlog
  have h3 : ρ * (-ε / c) ^ 2 = ε * (ε * (ρ / c ^ 2)) := by field_simp
  rw [h3]
  norm_num
  nlinarith

/-- A fit of the model with a ridge penalty: no utility is clipped at the estimate, and it is not zero. -/
theorem exNine_ridge {env : Env ℝ} {c ρ : ℝ} (h0 : c ≠ 0) (hρ : 0 < ρ) {m : ChoiceModel ℝ}
    (hm : createChoiceModel env "MNL" (exNine c) exLogitArgs = .ok m) (hcls : m.cls = .mnl) (hdat : m.data = exNine c)
    (hargs : m.args = exLogitArgs) (label : PyVal ℝ → String) (sf : ℝ → ℝ) :
    ∃ t, HoldsResultsOf label sf m
        (mnlFitCall exGlobal m ⟨⟨some (List.replicate exCols.length 0), none, none, none⟩, some ρ, none, false⟩) t ∧
      UnclippedFit m.data m.args.altIdCol exCols t ∧
      ∃ L, ∃ x : Fin exCols.length → ℝ, t.params = some ⟨L, List.ofFn x⟩ ∧ ∀ j, x j ≠ 0 := by
  obtain ⟨cls, nm, dt, ds, ns, ar, ms⟩ := m
  dsimp only at hcls hdat hargs ⊢
  subst hcls hdat hargs
  obtain ⟨chosen, hc⟩ := exNine_chosen c
  have hst := (mnl_fit_succeeds_iff hm rfl (s := [("x", .allSame)]) rfl (by simp) (by simp [exLogitArgs]) (exNine_ids c).1 hc
    (solver := exGlobal) label sf []
    ⟨⟨some (List.replicate exCols.length 0), none, none, none⟩, some ρ, none, false⟩ rfl (by simpa using hρ.le)
    (.inr ⟨by simpa using hρ.le, exGlobal_finds⟩)).2 ⟨⟨_, rfl, by simp⟩,
      by simp [exNine, exLogitArgs, Frame.colList]; norm_num, by simp [exNine], by simp, .inl (by simpa using hρ)⟩
  refine ⟨_, ⟨[], [], hst, by simp, rfl⟩, ?_⟩
  obtain ⟨n, x, labels, H, F, hn, -, -, hrep, hmax, -⟩ :=
    mnl_fit_report hm rfl (s := [("x", .allSame)]) rfl (exNine_ids c).1 (exNine_ids c).2 hc exGlobal_minimising.1 label sf [] []
      _ rfl hst (by simp)
  subst hn
  have hmx : ∀ y : Fin exCols.length → ℝ,
      -3 * Real.log (1 + Real.exp (clip700 (-c * y ⟨0, by simp [exCols_length]⟩)) +
        Real.exp (clip700 (2 * c * y ⟨0, by simp [exCols_length]⟩))) - ρ * y ⟨0, by simp [exCols_length]⟩ ^ 2 ≤
      -3 * Real.log (1 + Real.exp (clip700 (-c * x ⟨0, by simp [exCols_length]⟩)) +
        Real.exp (clip700 (2 * c * x ⟨0, by simp [exCols_length]⟩))) - ρ * x ⟨0, by simp [exCols_length]⟩ ^ 2 := by
    have e : ∀ y : Fin exCols.length → ℝ, (tableOf ⟨.mnl, nm, exNine c, ds, ns, exLogitArgs, ms⟩ [1, 2, 3]).logLik (some ρ)
        (fun (θ : Fin exCols.length → ℝ) r => rowIndex (exNine c) "alt" exCols (List.ofFn θ) r) y =
        -3 * Real.log (1 + Real.exp (clip700 (-c * y ⟨0, by simp [exCols_length]⟩)) +
          Real.exp (clip700 (2 * c * y ⟨0, by simp [exCols_length]⟩))) - ρ * y ⟨0, by simp [exCols_length]⟩ ^ 2 := by
      intro y
      have h1 := exNine_logLik c (fun _ y => y) (fun _ => rfl) y
      rw [described_dot rfl] at h1
      have h2 : ∑ k, y k ^ 2 = y ⟨0, by simp [exCols_length]⟩ ^ 2 := by
        refine Finset.sum_eq_single_of_mem _ (mem_univ _) fun k _ hk => absurd (Fin.ext ?_) hk
        have := k.2
        have := exCols_length
        simp only
        omega
      rw [show (-3 : ℝ) = -(1 + 1 + 1) by norm_num, ← h1, ← h2]
      rfl
    intro y
    exact (e y).symm.trans_le ((hmax exGlobal_minimising.2 y).trans (e x).le)
  refine ⟨?_, _, x, hrep.statistics.params, fun j hj => ?_⟩
  · intro L y hy r
    rw [hrep.statistics.params] at hy
    cases hy
    refine exNine_best (c := c) (w := fun _ y => y) (by simp) (by norm_num) ?_ r
    rw [exNine_logLik c (fun _ y => y) (by simp), exNine_logLik c (fun _ y => y) (by simp)]
    have h := hmx 0
    have hsq : 0 ≤ ρ * x ⟨0, by simp [exCols_length]⟩ ^ 2 := by positivity
    simp only [Pi.zero_apply, mul_zero, ne_eq, OfNat.ofNat_ne_zero, not_false_eq_true, zero_pow, sub_zero] at h ⊢
    norm_num at h ⊢
    linarith
  · obtain ⟨t, ht⟩ := descent h0 hρ
    have h := hmx fun _ => t
    obtain ⟨j, hlt⟩ := j
    obtain rfl : j = 0 := by have := exCols_length; omega
    have hz : clip700 0 = 0 := by norm_num [clip700]
    rw [hj] at h
    simp only [mul_zero, hz, Real.exp_zero, ne_eq, OfNat.ofNat_ne_zero, not_false_eq_true, zero_pow, sub_zero] at h
    linarith

/-- Non-vacuity of `fit_units_ridge`, and **C127** false with a ridge penalty: in units that differ by more than a sign,
both fits are stored and no utility is clipped, but the estimates differ. -/
theorem exNine_ridge_units (env : Env ℝ) (henv : env.badCol = fun _ => false) (label : PyVal ℝ → String) (sf : ℝ → ℝ)
    {c ρ : ℝ} (hc : c ≠ 0) (h1 : c ≠ 1) (h2 : c ≠ -1) (hρ : 0 < ρ) :
    ∃ m m' : ChoiceModel ℝ, createChoiceModel env "MNL" (exNine 1) exLogitArgs = .ok m ∧
      createChoiceModel env "MNL" (inUnits (exNine 1) (exUnits c)) exLogitArgs = .ok m' ∧
      let args : FitArgs := ⟨⟨some [0], none, none, none⟩, some ρ, none, false⟩
      ∃ t t', HoldsResultsOf label sf m (mnlFitCall exGlobal m args) t ∧
        HoldsResultsOf label sf m' (mnlFitCall exGlobal m' args) t' ∧
        UnclippedFit m.data m.args.altIdCol exCols t ∧ UnclippedFit m'.data m'.args.altIdCol exCols t' ∧
        ∃ L L', ∃ x x' : ℝ, t.params = some ⟨L, [x]⟩ ∧ t'.params = some ⟨L', [x']⟩ ∧ x' ≠ c⁻¹ * x := by
  obtain ⟨m, a1, a2, a3, a4, a5⟩ := exNine_built env henv 1
  obtain ⟨m', b1, b2, b3, b4, b5⟩ := exNine_built env henv c
  have b1' := b1
  rw [← exNine_units c] at b1'
  have ha : AltsOf m.data m.args.altIdCol [1, 2, 3] := by rw [a3, a4]; exact (exNine_ids 1).1
  have hids : AltsOf m.data m.args.obsIdCol [1, 2, 3] := by rw [a3, a4]; exact (exNine_ids 1).2
  obtain ⟨chosen, hch⟩ : ∃ chosen, OneChoicePerObs m.data m.args.obsIdCol m.args.choiceCol chosen := by
    rw [a3, a4]; exact exNine_chosen 1
  have hspec : m.args.specification = encodeAll [("x", .allSame)] := by rw [a4]; rfl
  have hone : ∀ j : Fin exCols.length, exUnits c exCols[j].ofVariable = c := by
    rintro ⟨j, hj⟩
    obtain rfl : j = 0 := by have := exCols_length; omega
    simp [exCols, specColumns, SpecVal.columns, ColDesc.ofVariable, exUnits]
  have hl : List.replicate exCols.length (0 : ℝ) = [0] := by rw [exCols_length]; rfl
  have hof : ∀ x : Fin exCols.length → ℝ, List.ofFn x = [x ⟨0, by simp [exCols_length]⟩] := fun x => by
    refine List.ext_getElem (by simp [exCols_length]) fun i h1 h2 => ?_
    have : i = 0 := by simpa using h2
    subst this
    simp
  obtain ⟨t, p1, p2, L, x, p3, p4⟩ := exNine_ridge one_ne_zero hρ a1 a2 a3 a4 label sf
  obtain ⟨t', q1, q2, L', x', q3, q4⟩ := exNine_ridge hc hρ b1 b2 b3 b4 label sf
  rw [hl] at p1 q1
  refine ⟨m, m', a1, b1', t, t', p1, q1, p2, q2, L, L', _, _, p3.trans (by rw [hof]), q3.trans (by rw [hof]), fun e => ?_⟩
  refine p4 ⟨0, by simp [exCols_length]⟩ (fit_units_ridge (exUnits_only hc) a1 b1' a2 hspec ha hids hch exGlobal_minimising.1
    exGlobal_minimising.1 exGlobal_minimising.2 exGlobal_minimising.2 label sf rfl rfl hρ.ne' rfl rfl p1 q1 p2 q2 p3 q3 ?_ _
    ?_ ?_)
  · rintro ⟨j, hj⟩
    obtain rfl : j = 0 := by have h : j < exCols.length := hj; rw [exCols_length] at h; omega
    rw [hone]
    exact e
  · rw [hone]; exact h1
  · rw [hone]; exact h2

end Units

end

end Pylogit
