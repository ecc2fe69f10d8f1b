import Verif.Props.LeftOutAlternative

/-!
# C133: log-likelihoods and predictions
-/

namespace Pylogit

open Spec

namespace LeftOut

theorem index_moved (F : Frame ℝ) (alt v : String) (r : Fin F.numRows) {alts all : List ℝ}
    {pre post : List (String × SpecVal ℝ)} {b b' : ℝ} {l l' : List ℝ} (h : AllBut all b l) (h' : AllBut all b' l')
    (hmem : F.val alt r ∈ all) {β₁ β₂ : List ℝ} (k : β₁.length = (specColumns alts pre).length) {g : ℝ → ℝ} (hg : g b = 0) :
    rowIndex F alt (specColumns alts (withCoefs pre v l' post)) (β₁ ++ ((l'.map fun a => g a - g b') ++ β₂)) r =
      rowIndex F alt (specColumns alts (withCoefs pre v l post)) (β₁ ++ (l.map g ++ β₂)) r - g b' * F.val v r := by
  rw [columns_with, columns_with]
  unfold rowIndex
  rw [List.zip_append k.symm, List.zip_append k.symm, List.zip_append (by simp), List.zip_append (by simp)]
  simp only [List.map_append, List.sum_append]
  rw [part_left F alt v r h hg hmem, part_left F alt v r (g := fun a => g a - g b') h' (sub_self _) hmem]
  ring

theorem keys_with (pre post : List (String × SpecVal ℝ)) (v : String) (l : List ℝ) :
    (encodeAll (withCoefs pre v l post)).map Prod.fst = pre.map Prod.fst ++ v :: post.map Prod.fst := by
  simp [encodeAll, withCoefs, Function.comp_def]

theorem addIntercept_with (pre post : List (String × SpecVal ℝ)) (v : String) (l l' : List ℝ) (df : Frame ℝ) :
    addIntercept (encodeAll (withCoefs pre v l' post)) df = addIntercept (encodeAll (withCoefs pre v l post)) df := by
  unfold addIntercept
  rw [keys_with, keys_with]

theorem holds_mnl {alts : List ℝ} {iref sref : PyRef} {p : ParamArrays} (h : p.intercepts = none) :
    HoldsFor .mnl alts iref sref p ⟨fun _ => 0, fun _ => 0⟩ :=
  ⟨fun _ _ _ => rfl, fun x hx => by simp [h] at hx, by simp, by simp⟩

end LeftOut

open LeftOut in
/-- **C133** (log-likelihood). Let `g` be the coefficients of the alternatives for a variable that is constant within
observations, zero for the alternative that is left out. If another alternative is left out instead, subtract its
coefficient from all of them, and keep the other coefficients. Then the log-likelihood is the same, unless a utility is
clipped. -/
theorem logLik_ignores_left_out_alternative {env env' : Env ℝ} {ty : String} {df : Frame ℝ} {a : ModelArgs ℝ}
    {m m' : ChoiceModel ℝ} {pre post : List (String × SpecVal ℝ)} {v : String} {l l' : List ℝ} {b b' : ℝ}
    {nm nm' : Option (List (String × PyVal ℝ))}
    (hm : createChoiceModel env ty df { a with specification := encodeAll (withCoefs pre v l post), names := nm } = .ok m)
    (hm' : createChoiceModel env' ty df { a with specification := encodeAll (withCoefs pre v l' post), names := nm' } = .ok m')
    (hmnl : m.cls = .mnl) {alts : List ℝ} (ha : AltsOf m.data a.altIdCol alts) (hl : AllBut alts b l)
    (hl' : AllBut alts b' l')
    (hv : ∀ r r', m.data.val a.obsIdCol r = m.data.val a.obsIdCol r' → m.data.val v r = m.data.val v r')
    {p p' : ParamArrays} (hi : p.intercepts = none) (hi' : p'.intercepts = none) {β₁ β₂ : List ℝ} {g : ℝ → ℝ} (hg : g b = 0)
    (hβ₁ : β₁.length = (specColumns alts pre).length) (hβ₂ : β₂.length = (specColumns alts post).length)
    (hp : p.index = β₁ ++ (l.map g ++ β₂)) (hp' : p'.index = β₁ ++ ((l'.map fun a => g a - g b') ++ β₂))
    (hclip :
      let u := rowIndex m.data a.altIdCol (specColumns alts (withCoefs pre v l post)) p.index
      ∀ r, |u r| < 700 ∧ |u r - g b' * m.data.val v r| < 700) :
    (fitInputs m' m'.data).logLik id m'.cls m'.args.interceptRefPos m'.args.shapeRefPos p' =
      (fitInputs m m.data).logLik id m.cls m.args.interceptRefPos m.args.shapeRefPos p := by
  obtain ⟨d1, d2, d3, d4, d5, -⟩ := LR.built hm
  obtain ⟨d1', d2', d3', d4', d5', -⟩ := LR.built hm'
  dsimp only at d1 d2 d3 d4 d5 d1' d2' d3' d4' d5'
  have k1 : m'.cls = .mnl := by rw [(LR.same_class hm hm').1, hmnl]
  have hdata : m'.data = m.data := by rw [d1, d1', addIntercept_with]
  rw [fit_maximises_table_logLik hm (by simp [hmnl]) d2 (by rw [d3]; exact ha) (by simp [hmnl])
      (by rw [hmnl]; exact holds_mnl hi) (by rw [hp, columns_with]; simp [hβ₁, hβ₂]),
    fit_maximises_table_logLik hm' (by simp [k1]) d2' (by rw [hdata, d3']; exact ha) (by simp [k1])
      (by rw [k1]; exact holds_mnl hi') (by rw [hp', columns_with]; simp [hβ₁, hβ₂])]
  rw [d3, d4, d5, d3', d4', d5', k1, hmnl]
  have hidx : ∀ r, rowIndex m.data a.altIdCol (specColumns alts (withCoefs pre v l' post)) p'.index r =
      rowIndex m.data a.altIdCol (specColumns alts (withCoefs pre v l post)) p.index r - g b' * m.data.val v r := by
    intro r
    rw [hp, hp']
    exact index_moved m.data a.altIdCol v r hl hl' ((ha.mem _).2 ⟨r, rfl⟩) hβ₁ hg
  have key := shifted_by (m.data.val a.obsIdCol)
    (rowIndex m.data a.altIdCol (specColumns alts (withCoefs pre v l post)) p.index) (fun r => g b' * m.data.val v r)
    (fun r => (hclip r).1) (fun r => (hclip r).2) (fun r r' e => by rw [hv r r' e])
  rw [hdata]
  simp only [rowUtility, hidx]
  rw [key]

open LeftOut in
/-- **C133** (predictions). With the coefficients of the previous theorem, the two models predict the same probabilities
for every table whose alternatives are among those of the model and in which the variable is constant within
observations, of all rows and of the choices, unless a utility is clipped. -/
theorem predictions_ignore_left_out_alternative {env env' : Env ℝ} {ty : String} {df : Frame ℝ} {a : ModelArgs ℝ}
    {m m' : ChoiceModel ℝ} {pre post : List (String × SpecVal ℝ)} {v : String} {l l' : List ℝ} {b b' : ℝ}
    {nm nm' : Option (List (String × PyVal ℝ))}
    (hm : createChoiceModel env ty df { a with specification := encodeAll (withCoefs pre v l post), names := nm } = .ok m)
    (hm' : createChoiceModel env' ty df { a with specification := encodeAll (withCoefs pre v l' post), names := nm' } = .ok m')
    (hmnl : m.cls = .mnl) {nf F : Frame ℝ} (hF : F = addIntercept (encodeAll (withCoefs pre v l post)) nf)
    {alts all : List ℝ} (ha : AltsOf F a.altIdCol alts) (hall : ∀ c ∈ alts, c ∈ all) (hl : AllBut all b l)
    (hl' : AllBut all b' l')
    (hv : ∀ r r', F.val a.obsIdCol r = F.val a.obsIdCol r' → F.val v r = F.val v r')
    {stored stored' : ParamArrays} {pl pl' : Option ParamArrays} (hi : (pl.getD stored).intercepts = none)
    (hi' : (pl'.getD stored').intercepts = none) {β₁ β₂ : List ℝ} {g : ℝ → ℝ} (hg : g b = 0)
    (hβ₁ : β₁.length = (specColumns alts pre).length)
    (hp : (pl.getD stored).index = β₁ ++ (l.map g ++ β₂))
    (hp' : (pl'.getD stored').index = β₁ ++ ((l'.map fun a => g a - g b') ++ β₂))
    (hclip :
      let u := rowIndex F a.altIdCol (specColumns alts (withCoefs pre v l post)) (pl.getD stored).index
      ∀ r, |u r| < 700 ∧ |u r - g b' * F.val v r| < 700)
    {rl : Bool} {cc : Option String} {res res'} (h : predict env m stored nf pl rl cc = .ok res)
    (h' : predict env' m' stored' nf pl' rl cc = .ok res') : HEq res' res := by
  obtain ⟨-, d2, d3, d4, d5, -⟩ := LR.built hm
  obtain ⟨-, d2', d3', d4', d5', -⟩ := LR.built hm'
  dsimp only at d2 d3 d4 d5 d2' d3' d4' d5'
  have k1 : m'.cls = .mnl := by rw [(LR.same_class hm hm').1, hmnl]
  clear hm hm'
  obtain ⟨cl, nm, dt, ds, ns, ar, ms⟩ := m
  obtain ⟨cl', nm', dt', ds', ns', ar', ms'⟩ := m'
  obtain ⟨x1, x2, x3, x4, x5, x6, x7, x8, x9, x10, x11, x12⟩ := ar
  obtain ⟨y1, y2, y3, y4, y5, y6, y7, y8, y9, y10, y11, y12⟩ := ar'
  obtain ⟨z1, z2, z3, z4, z5, z6, z7, z8, z9, z10, z11, z12⟩ := a
  dsimp only at d2 d3 d4 d5 d2' d3' d4' d5' k1 hmnl ha hclip hv
  subst d2 d3 d4 d5 d2' d3' d4' k1 hmnl
  unfold predict at h h'
  dsimp only at h h'
  have hkeys := addIntercept_with pre post v l l' nf
  rw [← hF] at hkeys
  generalize addIntercept (encodeAll (withCoefs pre v l post)) nf = G at *
  generalize addIntercept (encodeAll (withCoefs pre v l' post)) nf = G' at *
  subst hF
  subst hkeys
  have e := predict_right_alternatives_partial (s := withCoefs pre v l post) rfl ha (by simp) (holds_mnl hi) h
  have e' := predict_right_alternatives_partial (s := withCoefs pre v l' post) rfl ha (by simp) (holds_mnl hi') h'
  dsimp only at e e'
  have hidx : ∀ r, rowIndex G' y1 (specColumns alts (withCoefs pre v l' post)) (pl'.getD stored').index r =
      rowIndex G' y1 (specColumns alts (withCoefs pre v l post)) (pl.getD stored).index r - g b' * G'.val v r := by
    intro r
    rw [hp, hp']
    exact index_moved G' y1 v r hl hl' (hall _ ((ha.mem _).2 ⟨r, rfl⟩)) hβ₁ hg
  have key := shifted_by (G'.val y2)
    (rowIndex G' y1 (specColumns alts (withCoefs pre v l post)) (pl.getD stored).index) (fun r => g b' * G'.val v r)
    (fun r => (hclip r).1) (fun r => (hclip r).2) (fun r r' e => by rw [hv r r' e])
  simp only [rowUtility] at e e'
  simp only [hidx] at e'
  rw [key] at e'
  rw [e, e']

end Pylogit
