import Verif.Props.PredictRelabel
import Verif.Props.RenumberCases
import Verif.Props.SpecOrderCases

/-!
# C130, C131: concrete predictions
-/

open Matrix

namespace Pylogit

open Spec

noncomputable section

namespace Relabel

/-- A coefficient for each of the three alternatives. -/
def exEach : List (String × SpecVal ℝ) := [("x", .allDiff)]

def exEachArgs : ModelArgs ℝ := { exLogitArgs with specification := encodeAll exEach }

theorem exEach_built (g : ℝ ≃ ℝ) (env : Env ℝ) (henv : env.badCol = fun _ => false) (hint : env.isInt = fun _ => true) :
    ∃ m m', createChoiceModel env "MNL" exThreeAlts exEachArgs = .ok m ∧
      createChoiceModel env "MNL" (renumbered exThreeAlts "alt" g) exEachArgs = .ok m' := by
  have hb : Buildable env .mnl exThreeAlts exEachArgs := by
    have hadd : addIntercept exEachArgs.specification exThreeAlts = exThreeAlts := by
      simp [addIntercept, exEachArgs, exEach, encodeAll]
    refine ⟨by simp [exEachArgs, exLogitArgs, exThreeAlts], fun _ => rfl, by simp [exEachArgs, exLogitArgs], by simp,
      by simp [exEachArgs, exLogitArgs], by simp, by simp [exEachArgs, exEach, encodeAll, exThreeAlts], by simp [henv], ?_⟩
    rw [hadd]
    exact ⟨_, design_success env.fmt env.fmtList exThreeAlts exEach "alt" [1, 2, 3] LR.exThree_facts.1
      (by simp [exThreeAlts]) (by simp [exThreeAlts, exEach]) (by simp [SpecVal.ValidFor, exEach])
      (by simp [SpecVal.columns, exEach]), by simp⟩
  obtain ⟨m, hm⟩ := (construction_iff env .mnl exThreeAlts exEachArgs).2 hb
  obtain ⟨m', hm'⟩ := (construction_ignores_alternative_numbers (g := g) (env := env) (ty := "MNL") (a := exEachArgs)
    (a' := exEachArgs) (s := exEach) (by simp [hint]) ⟨rfl, rfl, .inl ⟨rfl, rfl⟩, rfl⟩
    (by simp [exEachArgs, exLogitArgs, exEach]) (by simp)).1 ⟨m, hm⟩
  exact ⟨m, m', hm, hm'⟩

theorem exEach_facts {env : Env ℝ} {df : Frame ℝ} {a : ModelArgs ℝ} {m : ChoiceModel ℝ}
    (hm : createChoiceModel env "MNL" df a = .ok m) :
    m.cls = .mnl ∧ m.args.interceptRefPos = a.interceptRefPos ∧ m.args.shapeRefPos = .none ∧
      m.args.mixingIdCol = none := by
  obtain ⟨-, h1, -⟩ := (factory_type _ _ _ _).2 m hm
  have hcls : m.cls = .mnl := by
    have e1 := (lookup_class (classOf .mnl) .mnl).2 rfl
    have e2 := (lookup_class (classOf .mnl) m.cls).2 h1
    exact Option.some.inj (e2.symm.trans e1)
  refine ⟨hcls, ?_, ?_, (built_own hm).2.2 (by simp [hcls])⟩
  all_goals
    unfold createChoiceModel at hm
    split at hm
    · cases hm
    rename_i c _
    rw [classInit_iff] at hm
    obtain ⟨-, -, d, -, -, rfl⟩ := initBuild_iff.1 (baseInit_ok.1 hm.2).2
    obtain rfl : c = .mnl := hcls
    rfl

/-- A model without outside intercepts and shapes holds the parameters of every alternative. -/
theorem exEach_holds {alts : List ℝ} (x : List ℝ) : HoldsFor .mnl alts .none .none ⟨x, none, none, none⟩ ⟨0, 0⟩ :=
  ⟨by simp, by simp, by simp, by simp⟩

theorem exBack_alts : AltsOf (renumbered exThreeAlts "alt" Renumbering.exBack) "alt" [1, 2, 3] := by
  refine ⟨by norm_num, fun x => ?_⟩
  have : ∀ r : Fin 3, (renumbered exThreeAlts "alt" Renumbering.exBack).val "alt" r = ![3, 2, 1] r := by
    intro r
    rw [renumbered_val_self (df := exThreeAlts) r]
    fin_cases r <;> simp [exThreeAlts, Renumbering.exBack] <;> norm_num
  constructor
  · intro hx
    simp only [List.mem_cons, List.not_mem_nil, or_false] at hx
    rcases hx with rfl | rfl | rfl
    · exact ⟨(2 : Fin 3), this 2⟩
    · exact ⟨(1 : Fin 3), this 1⟩
    · exact ⟨(0 : Fin 3), this 0⟩
  · rintro ⟨r, rfl⟩
    have h := this r
    have h' : ∀ r : Fin 3, (![3, 2, 1] : Fin 3 → ℝ) r ∈ [1, 2, 3] := by
      intro r
      fin_cases r <;> simp
    exact h ▸ h' r

theorem exPredicts {env : Env ℝ} {df nf : Frame ℝ} {a : ModelArgs ℝ} {m : ChoiceModel ℝ} {s : List (String × SpecVal ℝ)}
    (hm : createChoiceModel env "MNL" df a = .ok m) (hs : a.specification = encodeAll s) (hn : a.names = none)
    (hi : a.interceptRefPos = .none) (f1 : a.altIdCol = "alt") (f2 : a.obsIdCol = "obs") {alts : List ℝ}
    (ha : AltsOf (addIntercept a.specification nf) "alt" alts) (hcol : nf.columns = ["obs", "alt", "x", "y"])
    (hvars : ∀ kv ∈ s, kv.1 ∈ nf.columns) (hvalid : ∀ kv ∈ s, kv.2.ValidFor alts) (hne : specColumns alts s ≠ [])
    {x : List ℝ} (hx : x.length = (specColumns alts s).length) :
    ∃ res, predict env m ⟨x, none, none, none⟩ nf none true (some "y") = .ok res := by
  obtain ⟨c1, c2, c3, c4⟩ := exEach_facts hm
  obtain ⟨⟨p1, p2, p3, q1, q3⟩, -⟩ := built_cols hm
  have hsub : ∀ c ∈ nf.columns, c ∈ (addIntercept m.args.specification nf).columns := by
    intro c hc
    unfold addIntercept
    split_ifs
    · exact List.mem_append_left _ hc
    · exact hc
  exact ⟨_, predict_succeeds env m (q1.trans hs) (q3.trans hn) c4 ⟨x, none, none, none⟩ _ true (some "y")
    (alts := alts) (q := ⟨0, 0⟩) (by rw [p1, f1, q1]; exact ha) (by simp [c1])
    (by rw [c1, c2, c3, hi]; exact exEach_holds x) (hsub _ (by rw [p1, f1, hcol]; simp))
    (hsub _ (by rw [p2, f2, hcol]; simp)) (fun kv hkv => hsub _ (hvars kv hkv)) hvalid hne hx
    (fun c hc => by cases hc; exact hsub _ (by rw [hcol]; simp)) (.inl rfl)⟩

end Relabel

open Relabel

/-- Non-vacuity of `predictions_ignore_alternative_numbers`: the alternatives are numbered backwards, so that the
coefficients are listed backwards. -/
example (env : Env ℝ) (henv : env.badCol = fun _ => false) (hint : env.isInt = fun _ => true) (b₁ b₂ b₃ : ℝ) :
    ∃ m m' res res', createChoiceModel env "MNL" exThreeAlts exEachArgs = .ok m ∧
      createChoiceModel env "MNL" (renumbered exThreeAlts "alt" Renumbering.exBack) exEachArgs = .ok m' ∧
      predict env m ⟨[b₁, b₂, b₃], none, none, none⟩ exThreeAlts none true (some "y") = .ok res ∧
      predict env m' ⟨[b₃, b₂, b₁], none, none, none⟩ (renumbered exThreeAlts "alt" Renumbering.exBack) none true (some "y")
        = .ok res' ∧ HEq res' res := by
  obtain ⟨m, m', hm, hm'⟩ := exEach_built Renumbering.exBack env henv hint
  obtain ⟨c1, c2, c3, c4⟩ := exEach_facts hm
  obtain ⟨c1', c2', c3', c4'⟩ := exEach_facts hm'
  have hvar : exEachArgs.altIdCol ∉ exEach.map Prod.fst := by simp [exEachArgs, exLogitArgs, exEach]
  have ha := LR.exThree_facts.1
  obtain ⟨res, h⟩ := exPredicts (nf := exThreeAlts) (s := exEach) (alts := [1, 2, 3]) (x := [b₁, b₂, b₃]) hm rfl rfl rfl rfl
    rfl (alts_addIntercept (by simp [exEach]) ha) rfl (by simp [exEach, exThreeAlts])
    (by simp [exEach, SpecVal.ValidFor]) (by simp [exEach, specColumns, SpecVal.columns]) rfl
  obtain ⟨res', h'⟩ := exPredicts (nf := renumbered exThreeAlts "alt" Renumbering.exBack) (s := exEach) (alts := [1, 2, 3])
    (x := [b₃, b₂, b₁]) hm' rfl rfl rfl rfl rfl (alts_addIntercept (by simp [exEach]) exBack_alts) rfl
    (by simp [exEach, exThreeAlts, renumbered]) (by simp [exEach, SpecVal.ValidFor])
    (by simp [exEach, specColumns, SpecVal.columns]) rfl
  refine ⟨m, m', res, res', hm, hm', h, h', ?_⟩
  refine predictions_ignore_alternative_numbers (s := exEach) (alts := [1, 2, 3]) (alts' := [1, 2, 3])
    (σ := (Equiv.swap 0 2 : Fin 3 ≃ Fin 3)) (β := (![b₁, b₂, b₃] : Fin 3 → ℝ)) (q := ⟨0, 0⟩) (q' := ⟨0, 0⟩)
    Renumbering.exBack.injective rfl rfl
    ⟨rfl, ⟨rfl, by simp [exEachArgs, exLogitArgs]⟩, ⟨rfl, by simp [exEachArgs, exLogitArgs]⟩, rfl,
      by simp [exEachArgs, exLogitArgs]⟩ hvar hm hm' ha exBack_alts (by simp [c1]) ?_ ?_ ?_ ?_ ?_ ?_ ?_ h h'
  · intro j
    change Fin 3 at j
    have e3 : Renumbering.exBack 3 = 1 := by norm_num [Renumbering.exBack]
    have e2 : Renumbering.exBack 2 = 2 := by norm_num [Renumbering.exBack]
    have e1 : Renumbering.exBack 1 = 3 := by norm_num [Renumbering.exBack]
    fin_cases j
    · show (ColDesc.alt "x" 1 : ColDesc ℝ) = .alt "x" (Renumbering.exBack 3)
      rw [e3]
    · show (ColDesc.alt "x" 2 : ColDesc ℝ) = .alt "x" (Renumbering.exBack 2)
      rw [e2]
    · show (ColDesc.alt "x" 3 : ColDesc ℝ) = .alt "x" (Renumbering.exBack 1)
      rw [e1]
  · exact fun _ _ => ⟨rfl, rfl⟩
  · rw [c1, c2, c3]; exact exEach_holds _
  · rw [c1', c2', c3']; exact exEach_holds _
  · rfl
  · rfl
  · simp [exEachArgs, exLogitArgs]

/-- Non-vacuity of `predictions_ignore_listing_order`. -/
example (env : Env ℝ) (henv : env.badCol = fun _ => false) (hint : env.isInt = fun _ => true) (b₁ b₂ : ℝ) :
    ∃ m m' res res', createChoiceModel env "MNL" exThreeAlts ListingOrder.exTwoArgs = .ok m ∧
      createChoiceModel env "MNL" exThreeAlts ListingOrder.exTwoArgs' = .ok m' ∧
      predict env m ⟨[b₁, b₂], none, none, none⟩ exThreeAlts none true (some "y") = .ok res ∧
      predict env m' ⟨[b₂, b₁], none, none, none⟩ exThreeAlts none true (some "y") = .ok res' ∧ HEq res' res := by
  obtain ⟨m, m', hm, hm', -⟩ := ListingOrder.exTwo_built env henv hint (cls := .mnl) (by simp)
  obtain ⟨c1, c2, c3, c4⟩ := exEach_facts hm
  have hadd : ∀ s, s = ListingOrder.exTwo ∨ s = ListingOrder.exTwo' → addIntercept (encodeAll s) exThreeAlts = exThreeAlts := by
    rintro s (rfl | rfl) <;> simp [addIntercept, encodeAll, ListingOrder.exTwo, ListingOrder.exTwo']
  have ha := LR.exThree_facts.1
  have a1 : AltsOf (addIntercept ListingOrder.exTwoArgs.specification exThreeAlts) "alt" [1, 2, 3] := by
    rw [show ListingOrder.exTwoArgs.specification = encodeAll ListingOrder.exTwo from rfl, hadd _ (.inl rfl)]
    exact ha
  have a2 : AltsOf (addIntercept ListingOrder.exTwoArgs'.specification exThreeAlts) "alt" [1, 2, 3] := by
    rw [show ListingOrder.exTwoArgs'.specification = encodeAll ListingOrder.exTwo' from rfl, hadd _ (.inr rfl)]
    exact ha
  obtain ⟨res, h⟩ := exPredicts (nf := exThreeAlts) (s := ListingOrder.exTwo) (alts := [1, 2, 3]) (x := [b₁, b₂]) hm rfl rfl
    rfl rfl rfl a1 rfl (by simp [ListingOrder.exTwo, exThreeAlts]) (by simp [ListingOrder.exTwo, SpecVal.ValidFor])
    (by simp [ListingOrder.exTwo, specColumns, SpecVal.columns]) rfl
  obtain ⟨res', h'⟩ := exPredicts (nf := exThreeAlts) (s := ListingOrder.exTwo') (alts := [1, 2, 3]) (x := [b₂, b₁]) hm' rfl
    rfl rfl rfl rfl a2 rfl (by simp [ListingOrder.exTwo', exThreeAlts])
    (by simp [ListingOrder.exTwo', SpecVal.ValidFor]) (by simp [ListingOrder.exTwo', specColumns, SpecVal.columns]) rfl
  refine ⟨m, m', res, res', hm, hm', h, h', ?_⟩
  refine predictions_ignore_listing_order (s := ListingOrder.exTwo) (s' := ListingOrder.exTwo') (alts := [1, 2, 3])
    (σ := (Equiv.swap 0 1 : Fin 2 ≃ Fin 2)) (β := (![b₁, b₂] : Fin 2 → ℝ)) (q := ⟨0, 0⟩) ListingOrder.exTwo_same.perm rfl rfl
    rfl hm hm' a1 (by simp [c1]) ?_ ?_ ?_ ?_ ?_ h h'
  · intro j
    change Fin 2 at j
    fin_cases j <;> rfl
  · rw [c1, c2, c3]; exact exEach_holds _
  · rw [c1, c2, c3]; exact exEach_holds _
  · rfl
  · rfl

end

end Pylogit
