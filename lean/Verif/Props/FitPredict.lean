import Mathlib.Tactic
import Verif.Spec.FitPredict
import Verif.Props.FitStore
import Verif.Props.Predict
import Verif.Props.PredictNested
import Verif.Props.NestSpec
import Verif.Props.Random
import Verif.Props.ConstructMore

/-!
# Predicting the estimation data gives the fitted probabilities (C106)
-/

open Matrix

namespace Pylogit

open Spec

noncomputable section

/-! ## Helper lemmas -/

/-- What a built model knows about its own table. -/
structure OwnTable (env : Env ℝ) (m : ChoiceModel ℝ) : Prop where
  design : createDesignMatrix env.fmt env.fmtList m.data m.args.specification m.args.altIdCol
    m.args.names = .ok (m.design, m.indVarNames)
  alt : m.args.altIdCol ∈ m.data.columns
  obs : m.args.obsIdCol ∈ m.data.columns
  choice : m.args.choiceCol ∈ m.data.columns

theorem built_own {env : Env ℝ} {ty : String} {df : Frame ℝ} {a : ModelArgs ℝ} {m : ChoiceModel ℝ}
    (h : createChoiceModel env ty df a = .ok m) :
    OwnTable env m ∧ addIntercept m.args.specification df = m.data ∧
      (m.cls ≠ .mixed → m.args.mixingIdCol = none) := by
  unfold createChoiceModel at h
  split at h
  · cases h
  rename_i cls _
  rw [classInit_iff] at h
  obtain ⟨-, h⟩ := h
  obtain ⟨h1, h2⟩ := baseInit_ok.1 h
  obtain ⟨c1, -⟩ := initChecks_ok.1 h1
  obtain ⟨-, -, d, hd, -, rfl⟩ := initBuild_iff.1 h2
  refine ⟨⟨hd, ?_, ?_, ?_⟩, rfl, ?_⟩
  · exact addIntercept_columns _ _ _ (c1 _ (by simp))
  · exact addIntercept_columns _ _ _ (c1 _ (by simp))
  · exact addIntercept_columns _ _ _ (c1 _ (by simp))
  · intro hm
    cases cls <;> simp_all [argsFor]

private lemma checks_own {env : Env ℝ} {m : ChoiceModel ℝ} (h : OwnTable env m)
    (hmix : m.args.mixingIdCol = none) (rl : Bool) (cc : Option String)
    (hask : rl = true ∨ cc ≠ none) :
    predictChecks (W := ℝ) m m.data none rl cc = .ok () := by
  have e1 : ensureColumnsInDataframe [m.args.altIdCol] m.data = .ok () :=
    ensureColumns_ok.2 (by simpa using h.alt)
  have e2 : ensureColumnsInDataframe [m.args.obsIdCol] m.data = .ok () :=
    ensureColumns_ok.2 (by simpa using h.obs)
  have e3 : ¬ (¬ rl = true ∧ cc = none) := by tauto
  simp only [predictChecks, e1, e2, hmix, bind, Except.bind, if_neg e3]

private lemma predict_own {env : Env ℝ} {m : ChoiceModel ℝ} (h : OwnTable env m)
    (hmix : m.args.mixingIdCol = none) {x : List ℝ} {c l} (hp : fitProbs m x = .ok (c, l))
    (p : ParamArrays)
    (hpar : p = ⟨(splitParamVec m.cls (fitDims m) x).index,
      (splitParamVec m.cls (fitDims m) x).intercepts, (splitParamVec m.cls (fitDims m) x).shapes,
      (splitParamVec m.cls (fitDims m) x).nests⟩) :
    predictFrame env m p m.data none true (some m.args.choiceCol) =
        .ok (.both (fun o _ => c o) fun r _ => l r) ∧
      predictFrame env m p m.data none true none = .ok (.long fun r _ => l r) ∧
      predictFrame env m p m.data none false (some m.args.choiceCol) =
        .ok (.chosen fun o _ => c o) := by
  subst hpar
  unfold fitProbs at hp
  simp only [bind, Except.bind] at hp
  split at hp
  · cases hp
  rename_i v hv
  split at hp
  · cases hp
  rename_i t ht
  cases hp
  refine ⟨?_, ?_, ?_⟩ <;> rw [predictFrame_ok]
  · exact ⟨checks_own h hmix _ _ (by simp), by simp [h.choice], _, h.design, _, hv, _, ht, rfl⟩
  · exact ⟨checks_own h hmix _ _ (by simp), by simp, _, h.design, _, hv, _, ht, rfl⟩
  · exact ⟨checks_own h hmix _ _ (by simp), by simp [h.choice], _, h.design, _, hv, _, ht, rfl⟩

private lemma reproduces_of {env : Env ℝ} {m : ChoiceModel ℝ} {df : Frame ℝ} (h : OwnTable env m)
    (hdf : addIntercept m.args.specification df = m.data) (hmix : m.args.mixingIdCol = none)
    {x : List ℝ} {r : FitResults} (hr : FittedAt m x r) (s : FitAttrs)
    (hc : s.coefs.map Series.values = some r.split.index)
    (hi : s.intercepts.map Series.values = r.split.intercepts)
    (hs : s.shapes.map Series.values = r.split.shapes)
    (hn : s.nests.map Series.values = r.split.nests)
    (hf : s.fittedProbs = some r.chosenProbs) (hl : s.longFittedProbs = some r.longProbs) :
    Reproduces env m s df := by
  obtain ⟨c, l, hp, hrc, hrl⟩ := hr.probs
  have hst : storedArrays s = .ok ⟨r.split.index, r.split.intercepts, r.split.shapes,
      r.split.nests⟩ := by
    unfold storedArrays
    cases hco : s.coefs with
    | none => simp [hco] at hc
    | some co =>
      rw [hco] at hc
      simp only [Option.map_some, Option.some.injEq] at hc
      simp only [hc, hi, hs, hn]
  obtain ⟨p1, p2, p3⟩ := predict_own h hmix hp
    ⟨r.split.index, r.split.intercepts, r.split.shapes, r.split.nests⟩ (by rw [hr.split])
  have key : ∀ df' : Frame ℝ, df' = m.data →
      (∃ res, predictFrame env m ⟨r.split.index, r.split.intercepts, r.split.shapes, r.split.nests⟩ df'
        none true (some m.args.choiceCol) = .ok res ∧ chosenList res = some (List.ofFn c) ∧
          longList res = some (List.ofFn l)) ∧
      (∃ res, predictFrame env m ⟨r.split.index, r.split.intercepts, r.split.shapes, r.split.nests⟩ df'
        none true none = .ok res ∧ longList res = some (List.ofFn l)) ∧
      (∃ res, predictFrame env m ⟨r.split.index, r.split.intercepts, r.split.shapes, r.split.nests⟩ df'
        none false (some m.args.choiceCol) = .ok res ∧ chosenList res = some (List.ofFn c)) := by
    rintro df' rfl
    exact ⟨⟨_, p1, rfl, rfl⟩, ⟨_, p2, rfl⟩, ⟨_, p3, rfl⟩⟩
  obtain ⟨⟨res1, a1, a2, a3⟩, ⟨res2, b1, b2⟩, ⟨res3, c1, c2⟩⟩ := key _ hdf
  exact ⟨⟨_, _, _, _, hst, a1, a2, a3, by rw [hf, hrc], by rw [hl, hrl]⟩,
    ⟨_, _, _, hst, b1, b2, by rw [hl, hrl]⟩, ⟨_, _, _, hst, c1, c2, by rw [hf, hrc]⟩⟩

private lemma nested_own {env : Env ℝ} {m : ChoiceModel ℝ} (h : OwnTable env m)
    (hmix : m.args.mixingIdCol = none) {ns : List (String × List ℝ)} {x : List ℝ} {c l}
    (hp : fitNestedProbs m ns x = .ok (c, l)) (ic sh : Option (List ℝ)) :
    (∀ cc, cc = none ∨ cc = some m.args.choiceCol →
      predictNestedFrame env m ns ⟨x.drop ns.length, ic, sh, some (x.take ns.length)⟩ m.data none true cc
        = .ok (.long l)) ∧
      predictNestedFrame env m ns ⟨x.drop ns.length, ic, sh, some (x.take ns.length)⟩ m.data none false
        (some m.args.choiceCol) = .ok (.chosen c) := by
  unfold fitNestedProbs at hp
  simp only [bind, Except.bind] at hp
  split at hp
  · cases hp
  rename_i rtn hrtn
  split at hp
  · cases hp
  rename_i hsz
  split at hp
  · cases hp
  rename_i res hres
  simp only [calcNestedProbs] at hres
  simp only [List.mem_cons, List.not_mem_nil, or_false, or_true, not_true_eq_false, if_false,
    Option.isNone_some, Bool.false_and, Bool.false_eq_true, Option.map_some,
    show ("long_and_chosen_probs" = "all_prob_dict") = False by decide,
    show ("long_and_chosen_probs" = "long_probs") = False by decide,
    show ("long_and_chosen_probs" = "chosen_probs") = False by decide] at hres
  cases hres
  cases hp
  constructor
  · intro cc hcc
    have hch : choiceArray m.data cc = .ok (cc.map m.data.val) :=
      choiceArray_ok.2 ⟨by rcases hcc with rfl | rfl <;> simp [h.choice], rfl⟩
    unfold predictNestedFrame
    simp only [checks_own h hmix true cc (Or.inl rfl), h.design, hch, hrtn, bind, Except.bind,
      Option.getD_none, if_neg hsz, if_true]
    simp [calcNestedProbs]
  · have hch : choiceArray m.data (some m.args.choiceCol) = .ok (some (m.data.val m.args.choiceCol)) :=
      choiceArray_ok.2 ⟨by simp [h.choice], rfl⟩
    unfold predictNestedFrame
    simp only [checks_own h hmix false (some m.args.choiceCol) (Or.inr (by simp)), h.design, hch, hrtn,
      bind, Except.bind, Option.getD_none, if_neg hsz]
    simp [calcNestedProbs]

private lemma nested_reproduces_of {env : Env ℝ} {m : ChoiceModel ℝ} {df : Frame ℝ}
    (h : OwnTable env m) (hdf : addIntercept m.args.specification df = m.data)
    (hmix : m.args.mixingIdCol = none) {ns : List (String × List ℝ)}
    {x : List ℝ} {r : FitResults} (hr : NestedFittedAt m ns x r) (s : FitAttrs)
    (hc : s.coefs.map Series.values = some r.split.index)
    (hi : s.intercepts.map Series.values = r.split.intercepts)
    (hs : s.shapes.map Series.values = r.split.shapes)
    (hn : s.nests.map Series.values = r.split.nests)
    (hf : s.fittedProbs = some r.chosenProbs) (hl : s.longFittedProbs = some r.longProbs) :
    NestedReproduces env m ns s df := by
  obtain ⟨c, l, hp, hrc, hrl⟩ := hr.probs
  have hst : storedArrays s = .ok ⟨x.drop ns.length, none, none, some (x.take ns.length)⟩ := by
    rw [hr.split] at hc hi hs hn
    unfold storedArrays
    cases hco : s.coefs with
    | none => simp [hco] at hc
    | some co =>
      rw [hco] at hc
      simp only [Option.map_some, Option.some.injEq] at hc
      simp only [hc, hi, hs, hn, splitNested]
  obtain ⟨p1, p2⟩ := nested_own h hmix hp none none
  have key : ∀ df' : Frame ℝ, df' = m.data →
      (∀ cc, cc = none ∨ cc = some m.args.choiceCol → ∃ res,
        predictNestedFrame env m ns ⟨x.drop ns.length, none, none, some (x.take ns.length)⟩ df' none true
          cc = .ok res ∧ nestedLongList res = some (List.ofFn l)) ∧
      (∃ res, predictNestedFrame env m ns ⟨x.drop ns.length, none, none, some (x.take ns.length)⟩ df'
        none false (some m.args.choiceCol) = .ok res ∧ nestedChosenList res = some (List.ofFn c)) := by
    rintro df' rfl
    exact ⟨fun cc hcc => ⟨_, p1 cc hcc, rfl⟩, ⟨_, p2, rfl⟩⟩
  obtain ⟨k1, res, k2, k3⟩ := key _ hdf
  refine ⟨fun cc hcc => ?_, ⟨_, _, _, hst, k2, k3, by rw [hf, hrc]⟩⟩
  obtain ⟨res', q1, q2⟩ := k1 cc hcc
  exact ⟨_, _, _, hst, q1, q2, by rw [hl, hrl]⟩

/-- The attributes `coefs`, `intercepts`, `shapes`, `nests` and the fitted probabilities after a history
whose last stored fit is `r`. -/
theorem history_attrs (sf : ℝ → ℝ) (before after : List FitCall) (c : FitCall) (r : FitResults)
    (s : FitState) (hc : c.outcome = .results r)
    (hst : (fitCall sf c (fitCalls sf before s)).2 = none)
    (hafter : ∀ d ∈ after, ∀ r', d.outcome ≠ .results r') :
    (fitCalls sf (before ++ c :: after) s).attrs.coefs.map Series.values = some r.split.index ∧
      (fitCalls sf (before ++ c :: after) s).attrs.intercepts.map Series.values = r.split.intercepts ∧
      (fitCalls sf (before ++ c :: after) s).attrs.shapes.map Series.values = r.split.shapes ∧
      (fitCalls sf (before ++ c :: after) s).attrs.nests.map Series.values = r.split.nests ∧
      (fitCalls sf (before ++ c :: after) s).attrs.fittedProbs = some r.chosenProbs ∧
      (fitCalls sf (before ++ c :: after) s).attrs.longFittedProbs = some r.longProbs := by
  obtain ⟨h1, h2⟩ := fits_latest sf before after c r s hc hst hafter
  have hlen := ((store_fit_iff sf r s.attrs).1 h2).size
  obtain ⟨-, -, -, -, -, -, -, -, -, -, -, -, -, -, -, -, -, -, -, -, -, -, q1, -, -, -, -, -, -, -, -,
    -, -, q2, -, -, -, q3, q4, q5, q6⟩ := store_fit_consistent sf r s.attrs _ (Prod.ext rfl h2)
      (fun i => (r.split.nests.getD [] ++ (r.split.shapes.getD [] ++ (r.split.intercepts.getD [] ++
        r.split.index))).getD i 0) (by
        apply List.ext_getElem
        · simp only [List.length_append, List.length_ofFn, hlen]
        · intro i a1 a2
          simp [List.getElem?_eq_getElem a1])
  rw [h1]
  exact ⟨q3, q4, q5, q6, q1, q2⟩

private lemma singular_attrs (sf : ℝ → ℝ) (r r' : FitResults) (s : FitAttrs)
    (hs : Storable s.names r') (hn : r'.n = r.n) (hsplit : r'.split = r.split)
    (hsing : ¬ IsUnit r.hessian.det) :
    (storeFitResults sf r s).1.coefs.map Series.values = some r.split.index ∧
      (storeFitResults sf r s).1.intercepts.map Series.values = r.split.intercepts ∧
      (storeFitResults sf r s).1.shapes.map Series.values = r.split.shapes ∧
      (storeFitResults sf r s).1.nests.map Series.values = r.split.nests ∧
      (storeFitResults sf r s).1.fittedProbs = some r.chosenProbs ∧
      (storeFitResults sf r s).1.longFittedProbs = some r.longProbs := by
  obtain ⟨t, ht, q1, -, -, -, -, -, -, -, -, -, -, -, -, q2, q3, q4⟩ :=
    singular_hessian_mixture sf r r' s hs hn hsplit hsing
  obtain ⟨⟨-, -, f1, f2, -⟩, -⟩ := failed_store_mixture sf r s t _ ht
  rw [ht]
  exact ⟨q1, q2, q3, q4, f1, f2⟩

/-! ## C106 -/

/-- **C106** (logit-type models).  Build a model of any of the five logit types on a table; fit it any number of times, with
any results; let the last fit that stored its results be one that ended with the vector `x`, followed only
by calls that store nothing.  Predicting the same table then returns the stored fitted probabilities,
whichever parts are asked for. -/
theorem predict_reproduces_fit {env : Env ℝ} {ty : String} {df : Frame ℝ} {a : ModelArgs ℝ}
    {m : ChoiceModel ℝ} (hm : createChoiceModel env ty df a = .ok m) (hcls : m.cls ≠ .mixed)
    (sf : ℝ → ℝ) (before after : List FitCall) (c : FitCall) (r : FitResults) (s : FitState)
    (x : List ℝ) (hc : c.outcome = .results r) (hfit : FittedAt m x r)
    (hst : (fitCall sf c (fitCalls sf before s)).2 = none)
    (hafter : ∀ d ∈ after, ∀ r', d.outcome ≠ .results r') :
    Reproduces env m (fitCalls sf (before ++ c :: after) s).attrs df := by
  obtain ⟨h1, h2, h3⟩ := built_own hm
  obtain ⟨q1, q2, q3, q4, q5, q6⟩ := history_attrs sf before after c r s hc hst hafter
  exact reproduces_of h1 h2 (h3 hcls) hfit _ q1 q2 q3 q4 q5 q6

/-- **C106** (nested logit). -/
theorem predict_reproduces_nested_fit {env : Env ℝ} {ty : String} {df : Frame ℝ} {a : ModelArgs ℝ}
    {m : ChoiceModel ℝ} (hm : createChoiceModel env ty df a = .ok m) (hcls : m.cls ≠ .mixed)
    (ns : List (String × List ℝ))
    (sf : ℝ → ℝ) (before after : List FitCall) (c : FitCall) (r : FitResults) (s : FitState)
    (x : List ℝ) (hc : c.outcome = .results r) (hfit : NestedFittedAt m ns x r)
    (hst : (fitCall sf c (fitCalls sf before s)).2 = none)
    (hafter : ∀ d ∈ after, ∀ r', d.outcome ≠ .results r') :
    NestedReproduces env m ns (fitCalls sf (before ++ c :: after) s).attrs df := by
  obtain ⟨h1, h2, h3⟩ := built_own hm
  obtain ⟨q1, q2, q3, q4, q5, q6⟩ := history_attrs sf before after c r s hc hst hafter
  exact nested_reproduces_of h1 h2 (h3 hcls) hfit _ q1 q2 q3 q4 q5 q6

/-- **C106** (nested logit, every vector).  A nested logit model that has been built gives probabilities at
every vector with one entry per nest and per design column, so a fit of it always has results of the form
`predict_reproduces_nested_fit` speaks of. -/
theorem nested_fit_defined {env : Env ℝ} {df : Frame ℝ} {a : ModelArgs ℝ} {m : ChoiceModel ℝ}
    (hm : createChoiceModel env "Nested Logit" df a = .ok m) (ns : List (String × List ℝ))
    (hns : a.nestSpec = some (encodeNests ns)) (hk : (ns.map Prod.fst).Nodup) (x : List ℝ)
    (hx : x.length = ns.length + m.design.length) : ∃ c l, fitNestedProbs m ns x = .ok (c, l) := by
  have hkk : modelTypeToClass.lookup "Nested Logit" = some .nested := by decide
  simp only [createChoiceModel, hkk] at hm
  rw [classInit_iff] at hm
  obtain ⟨-, hm⟩ := hm
  obtain ⟨h1, h2⟩ := baseInit_ok.1 hm
  obtain ⟨c1, -, -, c4⟩ := initChecks_ok.1 h1
  obtain ⟨-, -, d, hd, -, rfl⟩ := initBuild_iff.1 h2
  rw [checkNestSpecArg_ok (mem_allIds df _)] at c4
  obtain ⟨t, ht, hp⟩ := c4 _ hns
  have : ns = t := by
    refine List.map_injective_iff.2 ?_ ht
    rintro ⟨a, b⟩ ⟨c, d⟩ e
    simp only [Prod.mk.injEq, PyVal.str.injEq, PyVal.list.injEq] at e
    have hinj : Function.Injective (PyVal.num : ℝ → PyVal ℝ) := fun x y e => by injection e
    exact Prod.ext e.1 (List.map_injective_iff.2 hinj e.2)
  subst this
  obtain ⟨g, -, hg⟩ := frame_rowsToNests (df := addIntercept a.specification df) (col := a.altIdCol)
    (nestSpec := ns) (alts := npSort (npUnique ((addIntercept a.specification df).colList a.altIdCol)))
    ⟨by rw [npSort_npUnique]; exact npUnique_strict _, fun a => by
      rw [npSort_npUnique, mem_npUnique, Frame.colList, List.mem_ofFn]⟩ hk (by
      intro b hb
      rw [npSort_npUnique, mem_npUnique] at hb
      refine hp.once b ?_
      rwa [addIntercept_colList _ _ _ (c1 _ (by simp [argsFor]))] at hb)
  have hsz : ¬ ((x.take ns.length).length ≠ ns.length ∨ d.1.length ≠ (x.drop ns.length).length) := by
    simp only [List.length_take, List.length_drop, ne_eq, not_or, not_not]
    constructor <;> simp only at hx <;> omega
  have hg' : (addIntercept (argsFor .nested a).specification df).rowsToNests (argsFor .nested a).altIdCol ns
      = .ok _ := hg
  simp only [fitNestedProbs, hg', bind, Except.bind, if_neg hsz]
  simp [calcNestedProbs]

/-- **C106** (failed fits).  Predictions and fitted probabilities still agree after a fit that raised because its Hessian is singular: both
are those of the failed fit, although the parameters shown by the summaries are not. -/
theorem predict_reproduces_singular_fit {env : Env ℝ} {ty : String} {df : Frame ℝ} {a : ModelArgs ℝ}
    {m : ChoiceModel ℝ} (hm : createChoiceModel env ty df a = .ok m) (hcls : m.cls ≠ .mixed)
    (sf : ℝ → ℝ) (r r' : FitResults) (s : FitAttrs) (x : List ℝ) (hfit : FittedAt m x r)
    (hs : Storable s.names r') (hn : r'.n = r.n) (hsplit : r'.split = r.split)
    (hsing : ¬ IsUnit r.hessian.det) :
    (storeFitResults sf r s).2 = some .linAlgError ∧
      Reproduces env m (storeFitResults sf r s).1 df := by
  obtain ⟨h1, h2, h3⟩ := built_own hm
  obtain ⟨q1, q2, q3, q4, q5, q6⟩ := singular_attrs sf r r' s hs hn hsplit hsing
  obtain ⟨t, ht, -⟩ := singular_hessian_mixture sf r r' s hs hn hsplit hsing
  exact ⟨by rw [ht], reproduces_of h1 h2 (h3 hcls) hfit _ q1 q2 q3 q4 q5 q6⟩

/-- **C106** (mixed logit).  With the seed and number of draws of the fit, predicting the estimation data
averages the stored fitted probabilities over the draws, whatever the state of the generator.  Asked for both
kinds of probabilities, `predict` raises instead. -/
theorem mixed_predict_reproduces_fit (g : Rng) {R O A K ι : Type} {m : ℕ} [Fintype R] [Fintype O]
    [Fintype K] (pos : List K) (coefs : K ⊕ Fin pos.length → ℝ) (X : Matrix R K ℝ) (ids : R → ι)
    (M C : Matrix R O ℝ) (rta : Matrix R A ℝ) (Q : Matrix R (Fin m) ℝ) (numDraws k : IntArg)
    (s s' : g.State) {d : ℕ} {c : O → Fin d → ℝ} {l : R → Fin d → ℝ}
    (hfit : mixedFitRng g pos coefs X ids M rta Q numDraws (some k) C s = .ok ⟨d, .both c l⟩) :
    ∃ t, mixedPredictRng g pos coefs X ids M rta Q numDraws (some k) none true s' =
        .ok (.inl fun r => (∑ i, l r i) / d, t) ∧
      mixedPredictRng g pos coefs X ids M rta Q numDraws (some k) (some C) false s' =
        .ok (.inr fun o => (∑ i, c o i) / d, t) ∧
      mixedPredictRng g pos coefs X ids M rta Q numDraws (some k) (some C) true s' =
        .error .attributeError := by
  unfold mixedFitRng at hfit
  unfold mixedPredictRng
  rw [normal_draws_seeded g m numDraws pos.length k s s'] at hfit
  cases hdr : normalDraws g m numDraws pos.length (some k) s' with
  | error e => simp [hdr, bind, Except.bind] at hfit
  | ok draws =>
    obtain ⟨d', dl, t⟩ := draws
    simp only [hdr, bind, Except.bind] at hfit ⊢
    cases he : createExpandedDesign X dl pos Q with
    | error e => simp [he] at hfit
    | ok x3 =>
      simp only [he, calcProbabilities, sysUtilities, Option.isNone_some, Bool.not_true, Bool.and_false,
        Bool.false_eq_true, if_false, bind, Except.bind, Except.ok.injEq, Sigma.mk.injEq] at hfit
      obtain ⟨rfl, hfit⟩ := hfit
      have := eq_of_heq hfit
      injection this with h1 h2
      refine ⟨t, ?_, ?_, ?_⟩
      · simp [mixedPredict, he, calcProbabilities, sysUtilities, bind, Except.bind, ← h2, drawMean]
      · simp [mixedPredict, he, calcProbabilities, sysUtilities, bind, Except.bind, ← h1, drawMean]
      · simp [mixedPredict, he, calcProbabilities, sysUtilities, bind, Except.bind]

/-- Non-vacuity of `mixed_predict_reproduces_fit`: one mixed coefficient, any data and mappings, two draws. -/
example {R O A ι : Type} [Fintype R] [Fintype O] (coefs : Fin 1 ⊕ Fin 1 → ℝ) (X : Matrix R (Fin 1) ℝ)
    (ids : R → ι) (M C : Matrix R O ℝ) (rta : Matrix R A ℝ) (Q : Matrix R (Fin 3) ℝ) (s : ℕ) :
    ∃ c l, mixedFitRng countingRng [0] coefs X ids M rta Q (.int 2) (some (.int 5)) C s =
      .ok ⟨2, .both c l⟩ := by
  have hd : normalDraws countingRng 3 (.int 2) 1 (some (.int 5)) s = .ok ⟨2, _, _⟩ :=
    (normal_draws_iff countingRng ..).2 ⟨by norm_num, by norm_num, by norm_num, rfl, (5 : ℕ),
      Or.inr ⟨5, by norm_num, rfl, by simp [countingRng]⟩, rfl, rfl⟩
  have hlen : [(0 : Fin 1)].length = 1 := rfl
  simp only [mixedFitRng, hlen, hd, bind, Except.bind]
  simp [createExpandedDesign, calcProbabilities, sysUtilities, bind, Except.bind]

/-! ## A concrete model, fitted twice -/

/-- One observation of the alternatives 1 and 2, of which the second was chosen. -/
def exChosen : Frame ℝ where
  columns := ["obs", "alt", "x", "y"]
  numRows := 2
  val := fun c => if c = "alt" then ![1, 2] else if c = "x" then ![1, 2] else if c = "y" then ![0, 1]
    else ![1, 1]

private theorem exChosen_alts : AltsOf exChosen "alt" [1, 2] where
  ascending := by simp
  mem x := by
    constructor
    · intro hx
      rcases List.mem_cons.1 hx with rfl | hx
      · exact ⟨(0 : Fin 2), rfl⟩
      · rw [List.mem_singleton.1 hx]; exact ⟨(1 : Fin 2), rfl⟩
    · rintro ⟨r, rfl⟩
      change Fin 2 at r
      fin_cases r <;> simp [exChosen]

/-- A multinomial logit model with one coefficient. -/
def exLogitArgs : ModelArgs ℝ :=
  { altIdCol := "alt", obsIdCol := "obs", choiceCol := "y"
    specification := encodeAll [("x", SpecVal.allSame)], names := none
    interceptRefPos := .none, shapeRefPos := .none, interceptNames := none, shapeNames := none
    nestSpec := none, mixingIdCol := none, mixingVars := none }

/-- The model is built, and at every coefficient a fit has results of the assumed form. -/
theorem exLogit_fits (env : Env ℝ) (henv : env.badCol = fun _ => false) :
    ∃ m, createChoiceModel env "MNL" exChosen exLogitArgs = .ok m ∧ m.cls ≠ .mixed ∧
      ∀ ll b h : ℝ, ∃ c l, FittedAt m [b] { exResults ll b h none with
        chosenProbs := c, longProbs := l } := by
  obtain ⟨d, hd, hlen⟩ : ∃ d, createDesignMatrix env.fmt env.fmtList exChosen
      (encodeAll [("x", SpecVal.allSame)]) "alt" none = .ok d ∧ d.1.length = 1 :=
    ⟨_, design_success env.fmt env.fmtList exChosen [("x", .allSame)] "alt" [1, 2] exChosen_alts
      (by simp [exChosen]) (by simp [exChosen]) (by simp [SpecVal.ValidFor])
      (by simp [SpecVal.columns]), by simp [SpecVal.columns]⟩
  have hk : modelTypeToClass.lookup "MNL" = some .mnl := by decide
  have hint : addIntercept (encodeAll [("x", (SpecVal.allSame : SpecVal ℝ))]) exChosen = exChosen := by
    simp [addIntercept, encodeAll]
  have hargs : argsFor .mnl exLogitArgs = exLogitArgs := rfl
  refine ⟨⟨.mnl, displayNameOf (classOf .mnl), exChosen, d.1, d.2, exLogitArgs, none⟩, ?_, by simp, ?_⟩
  · simp only [createChoiceModel, hk]
    rw [classInit_iff, hargs]
    refine ⟨by simp [exLogitArgs], baseInit_ok.2 ⟨initChecks_ok.2 ?_, ?_⟩⟩
    · simp [exLogitArgs, exChosen, checkNamesAndRef, checkNestSpecArg]
    · have : addIntercept exLogitArgs.specification exChosen = exChosen := hint
      rw [this, initBuild_iff]
      refine ⟨?_, ?_, d, hd, ?_, rfl⟩
      · simp [exLogitArgs, exChosen, encodeAll]
      · simp [henv]
      · simp [exLogitArgs]
  · intro ll b h
    obtain ⟨c, l, hcl⟩ : ∃ c l, fitProbs ⟨.mnl, displayNameOf (classOf .mnl), exChosen, d.1, d.2,
        exLogitArgs, none⟩ [b] = .ok (c, l) := by
      simp only [fitProbs, splitParamVec, designDot, hlen, predictTransform, exLogitArgs, bind,
        Except.bind, List.length_singleton, ne_eq, not_true_eq_false, if_false]
      exact ⟨_, _, rfl⟩
    exact ⟨_, _, ⟨rfl, c, l, hcl, rfl, rfl⟩⟩

/-- Non-vacuity of `predict_reproduces_fit` and `predict_reproduces_singular_fit`: two fits that store, a
fit whose Hessian is singular, and a `just_point` call. -/
example (env : Env ℝ) (henv : env.badCol = fun _ => false) (sf : ℝ → ℝ) :
    ∃ m r r', createChoiceModel env "MNL" exChosen exLogitArgs = .ok m ∧
      FittedAt m [4] r ∧ FittedAt m [7] r' ∧
      Reproduces env m (fitCalls sf [⟨none, .results (exResults (-2) 1 (-1) none)⟩, ⟨none, .results r⟩,
        ⟨some 1, .justPoint⟩] exFresh).attrs exChosen ∧
      (storeFitResults sf r' exFresh.attrs).2 = some .linAlgError ∧
      Reproduces env m (storeFitResults sf r' exFresh.attrs).1 exChosen := by
  obtain ⟨m, hm, hcls, hr⟩ := exLogit_fits env henv
  obtain ⟨c, l, h1⟩ := hr (-1) 4 (-2)
  obtain ⟨c', l', h2⟩ := hr (-1) 7 0
  refine ⟨m, _, _, hm, h1, h2, ?_, ?_⟩
  · refine predict_reproduces_fit hm hcls sf [⟨none, .results (exResults (-2) 1 (-1) none)⟩]
      [⟨some 1, .justPoint⟩] ⟨none, .results _⟩ _ exFresh _ rfl h1 ?_ (by simp)
    simp only [fitCall]
    rw [store_fit_iff]
    have := storable_congr (fitCalls_names sf [⟨none, .results (exResults (-2) 1 (-1) none)⟩] exFresh).symm
      (exStorable (-1) 4 (-2) (by norm_num) none (Or.inl rfl))
    exact ⟨this.1, this.2, this.3, this.4, this.5, this.6, this.7⟩
  · refine predict_reproduces_singular_fit hm hcls sf _ (exResults (-1) 7 (-2) none) exFresh.attrs _ h2
      (exStorable (-1) 7 (-2) (by norm_num) none (Or.inl rfl)) rfl rfl ?_
    show ¬ IsUnit (Matrix.det (Matrix.of fun _ _ : Fin 1 => (0 : ℝ)))
    rw [Matrix.det_unique]
    simp

/-- The nests of the concrete nested logit model: one per alternative. -/
def exTwoNests : List (String × List ℝ) := [("one", [1]), ("two", [2])]

/-- Non-vacuity of `nested_fit_defined` and `predict_reproduces_nested_fit`: a nested logit model of the same
table, with any nest and index parameters. -/
example (env : Env ℝ) (henv : env.badCol = fun _ => false) (hint : env.isInt = fun _ => true) (sf : ℝ → ℝ)
    (l1 l2 b : ℝ) :
    ∃ m r s, createChoiceModel env "Nested Logit" exChosen
        { exLogitArgs with nestSpec := some (encodeNests exTwoNests) } = .ok m ∧
      NestedFittedAt m exTwoNests [l1, l2, b] r ∧
      NestedReproduces env m exTwoNests (fitCalls sf [⟨none, .results r⟩] s).attrs exChosen := by
  obtain ⟨d, hd, hlen⟩ : ∃ d, createDesignMatrix env.fmt env.fmtList exChosen
      (encodeAll [("x", SpecVal.allSame)]) "alt" none = .ok d ∧ d.1.length = 1 :=
    ⟨_, design_success env.fmt env.fmtList exChosen [("x", .allSame)] "alt" [1, 2] exChosen_alts
      (by simp [exChosen]) (by simp [exChosen]) (by simp [SpecVal.ValidFor])
      (by simp [SpecVal.columns]), by simp [SpecVal.columns]⟩
  have hk : modelTypeToClass.lookup "Nested Logit" = some .nested := by decide
  have hadd : addIntercept (encodeAll [("x", (SpecVal.allSame : SpecVal ℝ))]) exChosen = exChosen := by
    simp [addIntercept, encodeAll]
  have hm : createChoiceModel env "Nested Logit" exChosen
      { exLogitArgs with nestSpec := some (encodeNests exTwoNests) } =
        .ok ⟨.nested, displayNameOf (classOf .nested), exChosen, d.1, d.2,
          { exLogitArgs with nestSpec := some (encodeNests exTwoNests) }, none⟩ := by
    simp only [createChoiceModel, hk]
    rw [classInit_iff]
    refine ⟨by simp [exLogitArgs], baseInit_ok.2 ⟨initChecks_ok.2 ⟨?_, ?_, ?_, ?_⟩, ?_⟩⟩
    · simp [exLogitArgs, exChosen, argsFor]
    · simp [exLogitArgs, checkNamesAndRef, argsFor]
    · simp [exLogitArgs, checkNamesAndRef, argsFor]
    · rw [checkNestSpecArg_ok (mem_allIds _ _)]
      rintro l hl
      refine ⟨exTwoNests, (Option.some.inj hl).symm, ?_⟩
      have hcol : exChosen.colList (argsFor .nested
          { exLogitArgs with nestSpec := some (encodeNests exTwoNests) }).altIdCol = [1, 2] := by
        simp [Frame.colList, exChosen, argsFor, exLogitArgs]
      rw [hcol]
      exact ⟨by simp [exTwoNests], by simp [exTwoNests], by simp [hint],
        by simp [exTwoNests], by simp [exTwoNests]⟩
    · have : addIntercept (argsFor .nested
          { exLogitArgs with nestSpec := some (encodeNests exTwoNests) }).specification exChosen = exChosen :=
        hadd
      rw [this, initBuild_iff]
      refine ⟨?_, ?_, d, hd, ?_, rfl⟩
      · simp [exLogitArgs, exChosen, encodeAll, argsFor]
      · simp [henv]
      · simp [exLogitArgs, argsFor]
  obtain ⟨c, l, hcl⟩ := nested_fit_defined hm exTwoNests rfl (by simp [exTwoNests]) [l1, l2, b]
    (by simp [exTwoNests, hlen])
  refine ⟨_, ⟨3, ⟨some [l1, l2], none, none, [b]⟩, fun _ => 0, 1, 1, none, -1, -3, 0, 0, true, "done",
    (List.ofFn c).map fun p => [p], (List.ofFn l).map fun p => [p], [], []⟩,
    ⟨none, { names := ⟨["x"], none, none, some ["one", "two"], none⟩ }⟩, hm, ⟨rfl, c, l, hcl, rfl, rfl⟩, ?_⟩
  refine predict_reproduces_nested_fit hm (by simp) exTwoNests sf [] [] ⟨none, .results _⟩ _ _ [l1, l2, b]
    rfl ⟨rfl, c, l, hcl, rfl, rfl⟩ ?_ (by simp)
  simp only [fitCall, fitCalls]
  rw [store_fit_iff]
  refine ⟨?_, ?_, ?_, ?_, ?_, ?_, ?_⟩ <;> simp [addMixingNames]

end

end Pylogit
