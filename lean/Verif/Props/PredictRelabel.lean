import Verif.Props.Renumber

/-!
# C130, C131: predictions of models whose variables are listed in another order, or whose alternatives have other numbers
-/

open Finset Matrix Function

namespace Pylogit

open Spec

noncomputable section

private def partsOf {N : ℕ} (w : Fin N → ℝ) (y : Option (Fin N → ℝ)) (P : Fin N → ℝ) (rl : Bool) :
    ProbResult (Fin N) (Fin (originalOrderUniqueIds (List.ofFn w)).length) Unit :=
  let chosen (y : Fin N → ℝ) := fun (o : Fin (originalOrderUniqueIds (List.ofFn w)).length) (_ : Unit) =>
    ∑ r with w r = (originalOrderUniqueIds (List.ofFn w)).get o, y r * P r
  match y, rl with
  | none, _ => .long fun r _ => P r
  | some c, true => .both (chosen c) fun r _ => P r
  | some c, false => .chosen (chosen c)

private lemma parts_eq {cols : List String} {N : ℕ} (val : String → Fin N → ℝ) (o : String) (P : Fin N → ℝ)
    (cc : Option String) (rl : Bool) :
    predictedParts ⟨cols, N, val⟩ o P cc rl = partsOf (val o) (cc.map val) P rl := by
  cases cc <;> cases rl <;> rfl

theorem parts_congr {cols cols' : List String} {N : ℕ} {val val' : String → Fin N → ℝ} {o o' : String} (e : o' = o)
    (ho : val' o = val o) {cc : Option String} (hc : ∀ c, cc = some c → val' c = val c) {P P' : Fin N → ℝ} (hP : P' = P)
    (rl : Bool) :
    HEq (predictedParts ⟨cols', N, val'⟩ o' P' cc rl) (predictedParts ⟨cols, N, val⟩ o P cc rl) := by
  subst e hP
  rw [parts_eq, parts_eq]
  have : cc.map val' = cc.map val := by
    cases cc with
    | none => rfl
    | some c => rw [Option.map_some, Option.map_some, hc c rfl]
  rw [this]
  have key : ∀ w w' : Fin N → ℝ, w' = w → HEq (partsOf w' (cc.map val) P' rl) (partsOf w (cc.map val) P' rl) := by
    rintro w _ rfl
    rfl
  exact key _ _ ho

/-- A column that is not among the variables is not changed by the intercept. -/
theorem alts_addIntercept {s : List (String × SpecVal ℝ)} {df : Frame ℝ} {c : String} (hc : c ∉ s.map Prod.fst)
    {alts : List ℝ} (ha : AltsOf df c alts) : AltsOf (addIntercept (encodeAll s) df) c alts := by
  have hk : (encodeAll s).map Prod.fst = s.map Prod.fst := by simp [encodeAll, Function.comp_def]
  unfold addIntercept
  rw [hk]
  split_ifs with h
  · have hne : c ≠ "intercept" := fun e => hc (e ▸ h.1)
    refine ⟨ha.ascending, fun b => ?_⟩
    rw [ha.mem]
    simp [hne]
  · exact ha

/-- **C131** (predictions). Give the alternatives other numbers, in the table the model is built on, in the specification
and in the table to predict. Let each coefficient stay with its column and each shape and intercept with its alternative.
Then the two models predict the same probabilities, of all rows and of the choices. -/
theorem predictions_ignore_alternative_numbers {g : ℝ → ℝ} (hg : Injective g) {env env' : Env ℝ} {ty : String}
    {df : Frame ℝ} {a a' : ModelArgs ℝ} {m m' : ChoiceModel ℝ} {s : List (String × SpecVal ℝ)}
    (hspec : a.specification = encodeAll s) (hspec' : a'.specification = encodeAll (renumberSpec g s))
    (hroles : SameRoles a a') (hvar : a.altIdCol ∉ s.map Prod.fst) (hm : createChoiceModel env ty df a = .ok m)
    (hm' : createChoiceModel env' ty (renumbered df a.altIdCol g) a' = .ok m')
    {nf : Frame ℝ} {alts alts' : List ℝ} (ha : AltsOf nf a.altIdCol alts)
    (ha' : AltsOf (renumbered nf a.altIdCol g) a.altIdCol alts') (hasym : m.cls = .asym → 2 ≤ alts.length)
    {σ : Fin (specColumns alts' (renumberSpec g s)).length ≃ Fin (specColumns alts s).length}
    (hσ : RelistsRenumbered g (specColumns alts' (renumberSpec g s)) (specColumns alts s) σ)
    {stored stored' : ParamArrays} {pl pl' : Option ParamArrays} {q q' : AltParams} (hq : SameAltParams g alts q q')
    (hp : HoldsFor m.cls alts m.args.interceptRefPos m.args.shapeRefPos (pl.getD stored) q)
    (hp' : HoldsFor m'.cls alts' m'.args.interceptRefPos m'.args.shapeRefPos (pl'.getD stored') q')
    {β : Fin (specColumns alts s).length → ℝ} (hβ : (pl.getD stored).index = List.ofFn β)
    (hβ' : (pl'.getD stored').index = List.ofFn (β ∘ σ)) {rl : Bool} {cc : Option String} (hcc : cc ≠ some a.altIdCol)
    {res res'} (h : predict env m stored nf pl rl cc = .ok res)
    (h' : predict env' m' stored' (renumbered nf a.altIdCol g) pl' rl cc = .ok res') : HEq res' res := by
  have R := renumbered_models hspec hspec' hroles hvar hm hm'
  have q1 : m.args.specification = encodeAll s := (built_cols hm).1.2.2.2.1.trans hspec
  have q2 : m'.args.specification = encodeAll (renumberSpec g s) := (built_cols hm').1.2.2.2.1.trans hspec'
  have p1 := (built_cols hm).1.1
  have hperm := alts_renumbered hg ha ha'
  have b1 := alts_addIntercept hvar ha
  have b2 : AltsOf (renumbered (addIntercept (encodeAll s) nf) a.altIdCol g) a.altIdCol alts' := by
    rw [← addIntercept_renumbered hvar]
    refine alts_addIntercept ?_ ha'
    rw [← keys_renumber g s] at hvar
    simpa [encodeAll, Function.comp_def] using hvar
  obtain ⟨c, nm, dt, ds, ns, ar, ms⟩ := m
  obtain ⟨c', nm', dt', ds', ns', ar', ms'⟩ := m'
  obtain ⟨x1, x2, x3, x4, x5, x6, x7, x8, x9, x10, x11, x12⟩ := ar
  obtain ⟨y1, y2, y3, y4, y5, y6, y7, y8, y9, y10, y11, y12⟩ := ar'
  obtain ⟨r1, -, r2, ⟨r3, r4⟩, -⟩ := R
  dsimp only at r1 r2 r3 r4 q1 q2 p1 hp hp' hasym
  subst r1 r2 r3 q1 q2 p1
  unfold predict at h h'
  dsimp only at h h'
  have hF := addIntercept_renumbered (g := g) (df := nf) hvar
  revert res' h'
  rw [hF]
  intro res' h'
  generalize addIntercept (encodeAll s) nf = F at *
  have e := predict_right_alternatives_partial (s := s) rfl b1 hasym hp h
  have e' := predict_right_alternatives_partial (s := renumberSpec g s) rfl b2
    (by rw [hperm.length_eq, List.length_map]; exact hasym) hp' h'
  rw [hβ] at e
  rw [hβ'] at e'
  rw [e, e']
  have u := fun r => rowIndex_renumbered (df := F) hg hvar hσ β r
  have v := fun r => renumbered_val_self (df := F) (c := a.altIdCol) (g := g) r
  have w := fun r => rowUtility_renumbered hperm hq c' (x := F.val a.altIdCol r) ((b1.mem _).2 ⟨r, rfl⟩)
  obtain ⟨cols, N, val⟩ := F
  have hcv : ∀ c, cc = some c → (renumbered ⟨cols, N, val⟩ a.altIdCol g).val c = val c := fun c hc =>
    renumbered_val fun e => hcc (by rw [hc, e])
  refine parts_congr rfl (renumbered_val (df := ⟨cols, N, val⟩) (g := g) r4) hcv ?_ rl
  rw [renumbered_val r4]
  congr 1
  funext r
  rw [u r, v r]
  exact w r _

/-- **C130** (predictions). Build two models with the variables of the index listed in two orders, and let each coefficient
stay with its column. Then the two models predict the same probabilities for every table. -/
theorem predictions_ignore_listing_order {env : Env ℝ} {ty : String} {df : Frame ℝ} {a a' : ModelArgs ℝ}
    {m m' : ChoiceModel ℝ} {s s' : List (String × SpecVal ℝ)} (hs : s'.Perm s)
    (hspec : a.specification = encodeAll s) (hspec' : a'.specification = encodeAll s')
    (hsame : a' = { a with specification := a'.specification, names := a'.names, nestSpec := a'.nestSpec })
    (hm : createChoiceModel env ty df a = .ok m) (hm' : createChoiceModel env ty df a' = .ok m')
    {nf : Frame ℝ} {alts : List ℝ} (ha : AltsOf (addIntercept a.specification nf) a.altIdCol alts)
    (hasym : m.cls = .asym → 2 ≤ alts.length)
    {σ : Fin (specColumns alts s').length ≃ Fin (specColumns alts s).length}
    (hσ : Relists (specColumns alts s') (specColumns alts s) σ)
    {stored stored' : ParamArrays} {pl pl' : Option ParamArrays} {q : AltParams}
    (hp : HoldsFor m.cls alts m.args.interceptRefPos m.args.shapeRefPos (pl.getD stored) q)
    (hp' : HoldsFor m.cls alts m.args.interceptRefPos m.args.shapeRefPos (pl'.getD stored') q)
    {β : Fin (specColumns alts s).length → ℝ} (hβ : (pl.getD stored).index = List.ofFn β)
    (hβ' : (pl'.getD stored').index = List.ofFn (β ∘ σ)) {rl : Bool} {cc : Option String}
    {res res'} (h : predict env m stored nf pl rl cc = .ok res)
    (h' : predict env m' stored' nf pl' rl cc = .ok res') : HEq res' res := by
  have R := relisted hs hspec hspec' hsame hm hm'
  have q1 : m.args.specification = encodeAll s := (built_cols hm).1.2.2.2.1.trans hspec
  have q2 : m'.args.specification = encodeAll s' := (built_cols hm').1.2.2.2.1.trans hspec'
  have p1 := (built_cols hm).1.1
  rw [hspec] at ha
  obtain ⟨c, nm, dt, ds, ns, ar, ms⟩ := m
  obtain ⟨c', nm', dt', ds', ns', ar', ms'⟩ := m'
  obtain ⟨x1, x2, x3, x4, x5, x6, x7, x8, x9, x10, x11, x12⟩ := ar
  obtain ⟨y1, y2, y3, y4, y5, y6, y7, y8, y9, y10, y11, y12⟩ := ar'
  obtain ⟨r1, -, r2, r3, -, r4, r5, -, -⟩ := R
  dsimp only at r1 r2 r3 r4 r5 q1 q2 p1 hp hp' hasym
  subst r1 r2 r3 r4 r5 q1 q2 p1
  unfold predict at h h'
  dsimp only at h h'
  have hF := addIntercept_perm hs nf
  revert res' h'
  rw [hF]
  intro res' h'
  generalize addIntercept (encodeAll s) nf = F at *
  have e := predict_right_alternatives_partial (s := s) rfl ha hasym hp h
  have e' := predict_right_alternatives_partial (s := s') rfl ha hasym hp' h'
  rw [hβ] at e
  rw [hβ'] at e'
  simp only [rowIndex_relisted hσ] at e'
  rw [e, e']

end

end Pylogit
