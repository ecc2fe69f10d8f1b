import Verif.Props.RenumberFit
import Verif.Props.RenumberCases

/-!
# C131: concrete fits

The three alternatives of a table are numbered backwards, or get numbers twice as large.
-/

open Matrix

namespace Pylogit

open Spec

noncomputable section

namespace Renumbering

/-- A penalised fit of the multinomial logit stores results. -/
theorem exHoldsNamed {env : Env ℝ} {ty : String} {df : Frame ℝ} {a : ModelArgs ℝ} {m : ChoiceModel ℝ}
    (hm : createChoiceModel env ty df a = .ok m) (hcls : m.cls = .mnl)
    {s : List (String × SpecVal ℝ)} (hspec : m.args.specification = encodeAll s) (hkeys : (s.map Prod.fst).Nodup)
    (hnm : ∀ ns, m.args.names = some ns → (ns.map Prod.fst).Nodup)
    {alts : List ℝ} (ha : AltsOf m.data m.args.altIdCol alts)
    {chosen : ℝ → Fin m.data.numRows} (hc : OneChoicePerObs m.data m.args.obsIdCol m.args.choiceCol chosen)
    (hasc : (m.data.colList m.args.obsIdCol).Pairwise (· ≤ ·)) (hrows : 0 < m.data.numRows)
    (label : PyVal ℝ → String) (sf : ℝ → ℝ) :
    ∃ k t, HoldsResultsOf label sf m
      (logitFitCall exGlobal m ⟨⟨some (List.replicate k 0), none, none, none⟩, some 1, none, false⟩) t := by
  refine ⟨totalParams m.cls ⟨alts.length, (specColumns alts s).length, 0, 0⟩ (m.args.interceptRefPos != .none), ?_⟩
  obtain ⟨h1, h3⟩ := penalised_fit_accepts hm (by simp [hcls]) (by simp [hcls]) (by simp [hcls]) hspec hkeys
    hnm ha (by simp [hcls]) hc exGlobal_finds ⟨⟨some (List.replicate (totalParams m.cls ⟨alts.length,
      (specColumns alts s).length, 0, 0⟩ (m.args.interceptRefPos != .none)) 0), none, none, none⟩, some 1, none, false⟩
    (by simp)
  have hst : ∀ x : List ℝ, StartsFrom m.cls ⟨alts.length, (specColumns alts s).length, 0, 0⟩ ⟨some x, none, none, none⟩ x := by
    intro x
    rw [hcls]
    exact .plain _ _ _ (.inl rfl)
  obtain ⟨r, hr⟩ := h1.2 ⟨⟨_, hst _, by simp⟩, hasc, hrows, by simp [hcls], by simp [hcls], by simp⟩
  exact ⟨_, [], [], h3 r hr rfl label sf [], by simp, rfl⟩

/-- A coefficient for one alternative, and one for two others, both at most 2. -/
theorem exIndex_small {df : Frame ℝ} {c : ℝ} {l : List ℝ} {y : List ℝ} (hb : ∀ b ∈ y, |b| ≤ 2)
    (hx : ∀ r, |df.val "x" r| ≤ 5) (r : Fin df.numRows) :
    |rowIndex df "alt" [.alt "x" c, .group "x" l] y r| < 700 := by
  have hv : ∀ d : ColDesc ℝ, d = .alt "x" c ∨ d = .group "x" l → |d.value df "alt" r| ≤ 5 := by
    intro d hd
    have := hx r
    rcases hd with rfl | rfl <;> simp only [ColDesc.value] <;> split_ifs <;> simp <;> linarith
  have hprod : ∀ {u b : ℝ}, |u| ≤ 5 → |b| ≤ 2 → |u * b| ≤ 10 := by
    intro u b hu hb
    rw [abs_mul]
    nlinarith [abs_nonneg u, abs_nonneg b]
  match y, hb with
  | [], _ => simp [rowIndex]
  | [b], hb =>
    have := hprod (hv _ (.inl rfl)) (hb b (by simp))
    simpa [rowIndex] using this.trans_lt (by norm_num)
  | b :: d :: k, hb =>
    have := (abs_add_le _ _).trans (add_le_add (hprod (hv _ (.inl rfl)) (hb b (by simp)))
      (hprod (hv _ (.inr rfl)) (hb d (by simp))))
    simpa [rowIndex] using this.trans_lt (by norm_num)

/-- What is used of the table, with or without new numbers. -/
structure ExFacts (df : Frame ℝ) (alts : List ℝ) (chosen : ℝ → Fin df.numRows) : Prop where
  alts : AltsOf df "alt" alts
  choice : OneChoicePerObs df "obs" "y" chosen
  sorted : (df.colList "obs").Pairwise (· ≤ ·)
  shares : |(⟨df, "obs", "y", []⟩ : LongData).equalShares| ≤ 2
  values : ∀ r, |df.val "x" r| ≤ 5
  rows : 0 < df.numRows

theorem exPartsFit {df : Frame ℝ} {alts : List ℝ} {chosen : ℝ → Fin df.numRows} (hf : ExFacts df alts chosen) {env : Env ℝ}
    {a : ModelArgs ℝ} {m : ChoiceModel ℝ} {s : List (String × SpecVal ℝ)} {c : ℝ} {l : List ℝ}
    (hm : createChoiceModel env "MNL" df a = .ok m) (hcls : m.cls = .mnl) (hd : m.data = df)
    (hspec : a.specification = encodeAll s) (hkeys : (s.map Prod.fst).Nodup)
    (hcols : specColumns alts s = [.alt "x" c, .group "x" l])
    (hnm : ∀ ns, a.names = some ns → (ns.map Prod.fst).Nodup) (f1 : a.altIdCol = "alt") (f2 : a.obsIdCol = "obs")
    (f3 : a.choiceCol = "y") (hi : m.args.interceptRefPos = .none) (label : PyVal ℝ → String) (sf : ℝ → ℝ) :
    ∃ k t, HoldsResultsOf label sf m
        (mnlFitCall exGlobal m ⟨⟨some (List.replicate k 0), none, none, none⟩, some 1, none, false⟩) t ∧
      UnclippedFit m.data m.args.altIdCol (specColumns alts s) t := by
  obtain ⟨⟨p1, p2, p3, q1, q3⟩, -⟩ := built_cols hm
  have hc : ∃ chosen, OneChoicePerObs m.data m.args.obsIdCol m.args.choiceCol chosen := by
    rw [hd, p2, p3, f2, f3]
    exact ⟨_, hf.choice⟩
  obtain ⟨chosen', hc⟩ := hc
  obtain ⟨k, t, ht⟩ := exHoldsNamed hm hcls (q1.trans hspec) hkeys (by rw [q3]; exact hnm) (alts := alts)
    (by rw [hd, p1, f1]; exact hf.alts) hc (by rw [hd, p2, f2]; exact hf.sorted) (by rw [hd]; exact hf.rows) label sf
  obtain ⟨L, x, ρ, -, -, h1, -, -, -, h2⟩ := fits_beat_equal_shares (alts := alts) hm hspec (by rw [f1]; exact hf.alts)
    (by simp [hcls]) (by rw [f2, f3]; exact hf.choice) exGlobal_minimising.1 exGlobal_minimising.2 rfl ht
  have h3 : (x.map (· ^ 2)).sum ≤ 2 := by
    have := (h2 (by simp)).2
    simp only [Option.getD_some, one_mul, f2, f3] at this
    exact this.trans hf.shares
  rw [LR.mnl_logit hcls hi (by rw [hd]; exact hf.rows)] at ht
  refine ⟨k, t, ht, fun L y hy r => ?_⟩
  rw [hy] at h1
  obtain rfl : y = x := by simpa using h1
  rw [p1, f1, hcols]
  revert r
  rw [hd]
  intro r
  refine exIndex_small (fun b hb => ?_) hf.values r
  have h4 : b ^ 2 ≤ (y.map (· ^ 2)).sum :=
    List.single_le_sum (fun z hz => by obtain ⟨w, -, rfl⟩ := List.mem_map.1 hz; exact sq_nonneg w) _
      (List.mem_map.2 ⟨b, hb, rfl⟩)
  exact abs_le_of_sq_le_sq (by linarith) (by norm_num)

def exPartsG (g : ℝ ≃ ℝ) : ModelArgs ℝ :=
  { exPartsArgs with
    specification := encodeAll (renumberSpec g exParts)
    nestSpec := some (encodeNests (renumberNests g exPairNests)) }

theorem exPartsG_roles (g : ℝ ≃ ℝ) : SameRoles exPartsArgs (exPartsG g) :=
  ⟨rfl, ⟨rfl, by simp [exPartsArgs, exLogitArgs]⟩, ⟨rfl, by simp [exPartsArgs, exLogitArgs]⟩,
    rfl, by simp [exPartsArgs, exLogitArgs]⟩

end Renumbering

open Renumbering

/-- Non-vacuity of `fit_reports_ignore_alternative_numbers` and of `fit_reports_ignore_increasing_numbers`: fits with
ridge penalty 1, for whatever new numbers. -/
example (g : ℝ ≃ ℝ) (env : Env ℝ) (henv : env.badCol = fun _ => false) (hint : env.isInt = fun _ => true)
    (label : PyVal ℝ → String) (sf : ℝ → ℝ) :
    ∃ m m' k k' t t', createChoiceModel env "MNL" exThreeAlts exPartsArgs = .ok m ∧
      createChoiceModel env "MNL" (renumbered exThreeAlts "alt" g) (exPartsG g) = .ok m' ∧
      HoldsResultsOf label sf m
        (mnlFitCall exGlobal m ⟨⟨some (List.replicate k 0), none, none, none⟩, some 1, none, false⟩) t ∧
      HoldsResultsOf label sf m'
        (mnlFitCall exGlobal m' ⟨⟨some (List.replicate k' 0), none, none, none⟩, some 1, none, false⟩) t' ∧
      SameFitRelisted (Equiv.refl (Fin 2)) t t' := by
  have hvar : exPartsArgs.altIdCol ∉ exParts.map Prod.fst := by simp [exPartsArgs, exLogitArgs, exParts]
  obtain ⟨m, -, hm, -, hcls, hd, e1, e2, e3, -⟩ := exParts_built env henv hint (cls := .mnl) (by simp)
  obtain ⟨m', hm'⟩ := (construction_ignores_alternative_numbers (g := g) (a' := exPartsG g) (by simp [hint])
    ⟨rfl, rfl, .inr ⟨_, rfl, rfl⟩, rfl⟩ hvar (fun _ => by simp [exPartsArgs])).1 ⟨m, hm⟩
  have R := renumbered_models (g := g) rfl rfl (exPartsG_roles g) hvar hm hm'
  obtain ⟨ha, hc, hasc, hL⟩ := LR.exThree_facts
  have hx : ∀ r, |exThreeAlts.val "x" r| ≤ 5 := by
    have h : ∀ r : Fin 3, |(![1, 2, 5] : Fin 3 → ℝ) r| ≤ 5 := by
      intro r
      fin_cases r <;> norm_num [abs_le]
    exact h
  have F : ExFacts exThreeAlts [1, 2, 3] (fun _ => (2 : Fin 3)) := ⟨ha, hc, hasc, hL, hx, by simp [exThreeAlts]⟩
  have v : ∀ c, c ≠ "alt" → (renumbered exThreeAlts "alt" g).val c = exThreeAlts.val c := fun c h => renumbered_val h
  have F' : ExFacts (renumbered exThreeAlts "alt" g) (npUnique ((renumbered exThreeAlts "alt" g).colList "alt"))
      (fun _ => (2 : Fin 3)) := by
    refine ⟨⟨npUnique_strict _, fun a => by rw [mem_npUnique, Frame.colList, List.mem_ofFn]⟩, ?_, ?_, ?_, ?_, ?_⟩
    · obtain ⟨h1, h2, h3⟩ := hc
      refine ⟨?_, ?_, ?_⟩ <;> simp only [v "obs" (by decide), v "y" (by decide)] <;> assumption
    · unfold Frame.colList at hasc ⊢
      rw [v "obs" (by decide)]
      exact hasc
    · have := shares_congr (cols := exThreeAlts.columns) (ids := []) (v "obs" (by decide)) (v "y" (by decide))
      exact (congrArg abs this).trans_le hL
    · intro r
      rw [v "x" (by decide)]
      exact hx r
    · exact F.rows
  have href : ∀ {df : Frame ℝ} {a : ModelArgs ℝ} {m : ChoiceModel ℝ}, createChoiceModel env "MNL" df a = .ok m →
      a.interceptRefPos = .none → m.args.interceptRefPos = .none := by
    intro df a m hm h
    unfold createChoiceModel at hm
    split at hm
    · cases hm
    rename_i c _
    rw [classInit_iff] at hm
    obtain ⟨-, -, d, -, -, rfl⟩ := initBuild_iff.1 (baseInit_ok.1 hm.2).2
    cases c <;> first | rfl | exact h
  have hd' : m'.data = renumbered exThreeAlts "alt" g := by rw [R.data, hd, e1]
  have hdict : ∀ ns, exPartsArgs.names = some ns → (ns.map Prod.fst).Nodup := by
    intro ns e
    cases e
    simp
  obtain ⟨k, t, h1, h2⟩ := exPartsFit F hm hcls hd rfl (by simp [exParts]) rfl hdict rfl rfl rfl (href hm rfl) label sf
  obtain ⟨k', t', h1', h2'⟩ := exPartsFit F' hm' (R.cls.trans hcls) hd' rfl (by simp [exParts, renumberSpec]) rfl hdict rfl rfl
    rfl (href hm' rfl) label sf
  have hc' : ∃ chosen, OneChoicePerObs m.data m.args.obsIdCol m.args.choiceCol chosen := by
    rw [hd, e2, e3]
    exact ⟨_, hc⟩
  obtain ⟨chosen, hc'⟩ := hc'
  refine ⟨m, m', k, k', t, t', hm, hm', h1, h1', ?_⟩
  exact fit_reports_ignore_alternative_numbers (s := exParts) (σ := (Equiv.refl (Fin 2) : Fin 2 ≃ Fin 2)) g.injective
    (by simp [exParts]) rfl rfl (exPartsG_roles g) hvar hdict hm hm' hcls (by rw [hd, e1]; exact ha)
    (by rw [hd', R.alt, e1]; exact F'.alts)
    (fun j => by
      change Fin 2 at j
      fin_cases j <;> rfl)
    (fun j => by
      rw [names_renumbered g.injective rfl rfl (exPartsG_roles g) hvar rfl (by simp [exPartsArgs]) hm hm']
      rfl) hc' exGlobal_minimising.1 exGlobal_minimising.1 exGlobal_minimising.2 exGlobal_minimising.2 label sf (by rfl)
    (by rfl) (by simp) (by rfl) (by rfl) (by rfl) h1 h1' h2 h2'

end

end Pylogit
