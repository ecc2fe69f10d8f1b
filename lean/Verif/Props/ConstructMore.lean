import Verif.Props.Construct
import Verif.Props.BootstrapMle

/-!
# C87: which models are built; where the mixing variables are
-/

set_option linter.unusedSectionVars false

namespace Pylogit

variable {V : Type} [LinearOrder V]

open Spec

/-- The documented requirements on the arguments of a model of class `cls`. -/
structure Spec.Buildable [MulZeroOneClass V] (env : Env V) (cls : ModelType) (df : Frame V)
    (a : ModelArgs V) : Prop where
  /-- The three id columns are there. -/
  idCols : a.altIdCol ∈ df.columns ∧ a.obsIdCol ∈ df.columns ∧ a.choiceCol ∈ df.columns
  /-- Intercepts of an MNL or mixed logit are in the index. -/
  noIntercepts : cls = .mnl ∨ cls = .mixed → a.interceptRefPos = .none
  /-- Named outside intercepts: a valid reference position and a name for each of the others. -/
  intercepts : UsesOutsideIntercepts cls → ∀ l, a.interceptNames = some l →
    ∃ z : ℤ, a.interceptRefPos = .int z ∧ 0 ≤ z ∧ z < numAlternatives df a.altIdCol ∧
      l.length + 1 = numAlternatives df a.altIdCol
  /-- The shapes of the asymmetric model have a reference. -/
  asymShapes : cls = .asym → ∃ z : ℤ, a.shapeRefPos = .int z ∧ ∀ l, a.shapeNames = some l →
    0 ≤ z ∧ z < numAlternatives df a.altIdCol ∧ l.length + 1 = numAlternatives df a.altIdCol
  /-- The other shapes do not. -/
  shapes : cls = .scobit ∨ cls = .uneven → ∀ l, a.shapeNames = some l →
    l.length = numAlternatives df a.altIdCol
  /-- The nests partition the alternatives. -/
  nests : cls = .nested → ∃ t, a.nestSpec = some (encodeNests t) ∧
    NestPartition env.isInt t (df.colList a.altIdCol)
  /-- The variables of the specification are columns; `intercept` need not be. -/
  specCols : ∀ kv ∈ a.specification, kv.1 ∈ df.columns ∨ kv.1 = "intercept"
  /-- They hold finite numbers. -/
  specNums : ∀ kv ∈ a.specification, env.badCol kv.1 = false
  /-- Specification and names describe a design matrix, and the mixing variables are among its names. -/
  design : ∃ d, createDesignMatrix env.fmt env.fmtList (addIntercept a.specification df) a.specification
      a.altIdCol a.names = .ok d ∧
    (cls = .mixed → ∀ l, a.mixingVars = some l → ∀ v ∈ l, PyVal.str v ∈ d.2)

theorem eqStr_iff {s : String} {x : PyVal V} : x.eqStr s = true ↔ x = .str s := by
  cases x <;> simp [PyVal.eqStr]

theorem ensureMixingVars_ok {mv : Option (List String)} {ns : List (PyVal V)} :
    ensureMixingVars mv ns = .ok () ↔ ∀ l, mv = some l → ∀ v ∈ l, PyVal.str v ∈ ns := by
  cases mv with
  | none => simp [ensureMixingVars]
  | some l =>
    simp [ensureMixingVars, eqStr_iff, List.filter_eq_nil_iff]

theorem mixingPositions_ok {l : List String} {ns : List (PyVal V)} {pos : List ℕ} :
    mixingPositions l ns = .ok pos ↔
      (∀ v ∈ l, PyVal.str v ∈ ns) ∧ pos = l.map fun v => ns.findIdx (PyVal.eqStr v) := by
  unfold mixingPositions
  induction l generalizing pos with
  | nil =>
    rw [List.mapM_nil]
    simp only [pure, Except.pure, Except.ok.injEq, List.not_mem_nil, false_implies, implies_true, true_and,
      List.map_nil]
    exact eq_comm
  | cons v l ih =>
    rw [List.mapM_cons]
    by_cases hv : PyVal.str v ∈ ns
    · have : ns.any (PyVal.eqStr v) = true := List.any_eq_true.2 ⟨_, hv, by simp [PyVal.eqStr]⟩
      rw [if_pos this]
      cases h : List.mapM (fun v => if ns.any (PyVal.eqStr v) = true then
          Except.ok (ns.findIdx (PyVal.eqStr v)) else Except.error Err.valueError) l with
      | error e =>
        simp only [bind, Except.bind, reduceCtorEq, false_iff, not_and]
        intro h1
        have := (ih (pos := l.map fun v => ns.findIdx (PyVal.eqStr v))).2
          ⟨fun v hv => h1 v (by simp [hv]), rfl⟩
        rw [h] at this
        cases this
      | ok p =>
        obtain ⟨h1, h2⟩ := ih.1 h
        simp only [bind, Except.bind, pure, Except.pure, Except.ok.injEq, List.forall_mem_cons, hv,
          true_and, List.map_cons, ← h2]
        exact ⟨fun e => ⟨h1, e.symm⟩, fun e => e.2.symm⟩
    · have : ¬ ns.any (PyVal.eqStr v) = true := by
        rw [List.any_eq_true]
        rintro ⟨x, hx, e⟩
        rw [eqStr_iff] at e
        exact hv (e ▸ hx)
      rw [if_neg this]
      simp [bind, Except.bind, hv]

/-- What the constructor of a class passes on. -/
def argsFor (cls : ModelType) (a : ModelArgs V) : ModelArgs V :=
  match cls with
  | .mnl =>
      { a with shapeRefPos := .none, interceptNames := none, shapeNames := none, nestSpec := none,
               mixingIdCol := none, mixingVars := none }
  | .asym => { a with nestSpec := none, mixingIdCol := none, mixingVars := none }
  | .cloglog =>
      { a with shapeRefPos := .none, shapeNames := none, nestSpec := none, mixingIdCol := none,
               mixingVars := none }
  | .scobit => { a with shapeRefPos := .none, nestSpec := none, mixingIdCol := none, mixingVars := none }
  | .uneven => { a with shapeRefPos := .none, nestSpec := none, mixingIdCol := none, mixingVars := none }
  | .nested =>
      { a with interceptRefPos := .none, shapeRefPos := .none, interceptNames := none,
               shapeNames := none, mixingIdCol := none, mixingVars := none }
  | .mixed =>
      { a with shapeRefPos := .none, interceptNames := none, shapeNames := none, nestSpec := none }

theorem classInit_iff [MulZeroOneClass V] {env : Env V} {cls : ModelType} {df : Frame V}
    {a : ModelArgs V} {m : ChoiceModel V} :
    classInit env cls df a = .ok m ↔
      ((cls = .mnl ∨ cls = .mixed → a.interceptRefPos = .none) ∧
        (cls = .asym → ∃ z, a.shapeRefPos = .int z) ∧ (cls = .nested → ∃ l, a.nestSpec = some l)) ∧
      baseInit env cls (displayNameOf (classOf cls)) df (argsFor cls a) = .ok m := by
  cases cls with
  | mnl => by_cases h : a.interceptRefPos = .none <;> simp [classInit, argsFor, h, classOf]
  | asym => cases h : a.shapeRefPos <;> simp [classInit, argsFor, h, classOf]
  | cloglog => simp [classInit, argsFor, classOf]
  | scobit => simp [classInit, argsFor, classOf]
  | uneven => simp [classInit, argsFor, classOf]
  | nested => cases h : a.nestSpec <;> simp [classInit, argsFor, h, classOf]
  | mixed => by_cases h : a.interceptRefPos = .none <;> simp [classInit, argsFor, h, classOf]

theorem initBuild_iff [MulZeroOneClass V] {env : Env V} {cls : ModelType} {name : String}
    {df : Frame V} {a : ModelArgs V} {m : ChoiceModel V} :
    initBuild env cls name df a = .ok m ↔
      (∀ c ∈ a.specification.map Prod.fst, c ∈ df.columns) ∧
      (∀ kv ∈ a.specification, env.badCol kv.1 = false) ∧
      ∃ d, createDesignMatrix env.fmt env.fmtList df a.specification a.altIdCol a.names = .ok d ∧
        (∀ l, a.mixingVars = some l → ∀ v ∈ l, PyVal.str v ∈ d.2) ∧
        m = ⟨cls, name, df, d.1, d.2, a,
          a.mixingVars.map fun l => l.map fun v => d.2.findIdx (PyVal.eqStr v)⟩ := by
  rw [← ensureColumns_ok]
  have hn : ensureValidNums env.badCol a.specification = .ok () ↔
      ∀ kv ∈ a.specification, env.badCol kv.1 = false := by
    simp [ensureValidNums, List.filter_eq_nil_iff]
  rw [← hn]
  unfold initBuild
  cases h1 : ensureColumnsInDataframe (a.specification.map Prod.fst) df with
  | error e => simp [bind, Except.bind]
  | ok u =>
  cases h2 : ensureValidNums env.badCol a.specification with
  | error e => simp [bind, Except.bind]
  | ok u =>
  cases h3 : createDesignMatrix env.fmt env.fmtList df a.specification a.altIdCol a.names with
  | error e => simp [bind, Except.bind]
  | ok d =>
  simp only [bind, Except.bind, true_and, Except.ok.injEq, exists_eq_left']
  cases h4 : ensureMixingVars a.mixingVars d.2 with
  | error e =>
    simp only [reduceCtorEq, false_iff, not_and]
    intro h
    rw [ensureMixingVars_ok.2 h] at h4
    cases h4
  | ok u =>
    have h5 := ensureMixingVars_ok.1 h4
    have h6 : mixingPosArg a.mixingVars d.2 = .ok
        (a.mixingVars.map fun l => l.map fun v => d.2.findIdx (PyVal.eqStr v)) := by
      cases hm : a.mixingVars with
      | none => rfl
      | some l =>
        simp [mixingPosArg, mixingPositions_ok.2 ⟨h5 l hm, rfl⟩, bind, Except.bind]
    simp only [h6, Except.ok.injEq]
    exact ⟨fun e => ⟨h5, e.symm⟩, fun e => e.2.symm⟩

theorem mem_addIntercept [One V] (spec : List (String × PyVal V)) (df : Frame V) :
    (∀ c ∈ spec.map Prod.fst, c ∈ (addIntercept spec df).columns) ↔
      ∀ kv ∈ spec, kv.1 ∈ df.columns ∨ kv.1 = "intercept" := by
  simp only [List.mem_map, forall_exists_index, and_imp, forall_apply_eq_imp_iff₂]
  unfold addIntercept
  split_ifs with h
  · simp
  · rw [not_and, not_not] at h
    refine forall₂_congr fun kv hkv => ⟨Or.inl, ?_⟩
    rintro (h' | h')
    · exact h'
    · rw [h'] ; exact h (List.mem_map.2 ⟨kv, hkv, h'⟩)

theorem nestPartition_ids {isInt : V → Bool} {t : List (String × List V)} {l l' : List V}
    (h : ∀ a, a ∈ l ↔ a ∈ l') : NestPartition isInt t l ↔ NestPartition isInt t l' :=
  ⟨fun p => ⟨p.1, p.2, p.3, fun a ha => p.4 a ((h a).2 ha), fun n hn a ha => (h a).1 (p.5 n hn a ha)⟩,
   fun p => ⟨p.1, p.2, p.3, fun a ha => p.4 a ((h a).1 ha), fun n hn a ha => (h a).2 (p.5 n hn a ha)⟩⟩

theorem mem_allIds (df : Frame V) (c : String) (a : V) : a ∈ allIds df c ↔ a ∈ df.colList c := by
  rw [allIds, npSort_npUnique, mem_npUnique]

theorem argsFor_same (cls : ModelType) (a : ModelArgs V) :
    (argsFor cls a).altIdCol = a.altIdCol ∧ (argsFor cls a).obsIdCol = a.obsIdCol ∧
      (argsFor cls a).choiceCol = a.choiceCol ∧ (argsFor cls a).specification = a.specification ∧
      (argsFor cls a).names = a.names := by
  cases cls <;> exact ⟨rfl, rfl, rfl, rfl, rfl⟩

theorem checkNestSpecArg_ok {isInt : V → Bool} {ns : Option (List (PyVal V × PyVal V))} {ids ids' : List V}
    (h : ∀ a, a ∈ ids ↔ a ∈ ids') : checkNestSpecArg isInt ns ids = .ok () ↔
      ∀ l, ns = some l → ∃ t, l = encodeNests t ∧ NestPartition isInt t ids' := by
  cases ns with
  | none => simp [checkNestSpecArg]
  | some l =>
    simp only [checkNestSpecArg, validateNestSpec_ok_iff, Option.some.injEq, forall_eq',
      nestPartition_ids h]

/-- **C87** (acceptance). A model of a documented type is built exactly when the documented requirements
hold. -/
theorem construction_iff [MulZeroOneClass V] (env : Env V) (cls : ModelType) (df : Frame V)
    (a : ModelArgs V) :
    (∃ m, createChoiceModel env (classOf cls) df a = .ok m) ↔ Buildable env cls df a := by
  have hl : modelTypeToClass.lookup (classOf cls) = some cls := (lookup_class _ _).2 rfl
  obtain ⟨e1, e2, e3, e4, e5⟩ := argsFor_same cls a
  simp only [createChoiceModel, hl, classInit_iff, baseInit_ok, initBuild_iff, initChecks_ok,
    checkNamesAndRef_ok, checkNestSpecArg_ok (mem_allIds df _), e1, e2, e3, e4, e5, mem_addIntercept,
    List.forall_mem_cons, List.not_mem_nil, false_implies, implies_true, and_true]
  constructor
  · rintro ⟨m, ⟨g1, g2, g3⟩, ⟨c1, c2, c3, c4⟩, s1, s2, d, hd, hm, -⟩
    refine ⟨c1, g1, ?_, ?_, ?_, ?_, s1, s2, d, hd, ?_⟩
    · cases cls <;> simp only [UsesOutsideIntercepts, false_implies, argsFor] at c3 ⊢ <;>
      · intro _ l e
        rcases c3 l e with ⟨-, h, -⟩ | h
        · cases h
        · exact h
    · rintro rfl
      obtain ⟨z, hz⟩ := g2 rfl
      refine ⟨z, hz, fun l e => ?_⟩
      rcases c2 l e with ⟨h, -⟩ | ⟨z', h, h'⟩
      · simp [argsFor, hz] at h
      · simp only [argsFor, hz, PyRef.int.injEq] at h
        exact h ▸ h'
    · rintro (rfl | rfl) l e <;>
      · rcases c2 l e with ⟨-, -, h⟩ | ⟨z', h, h'⟩
        · exact h
        · simp [argsFor] at h
    · rintro rfl
      obtain ⟨l, e⟩ := g3 rfl
      obtain ⟨t, rfl, ht⟩ := c4 l e
      exact ⟨t, e, ht⟩
    · rintro rfl l e
      exact hm l e
  · rintro ⟨c1, g1, c3, c2, c2', c4, s1, s2, d, hd, hm⟩
    refine ⟨_, ⟨g1, fun h => ?_, fun h => ?_⟩, ⟨c1, ?_, ?_, ?_⟩, s1, s2, d, hd, ?_, rfl⟩
    · obtain ⟨z, hz, -⟩ := c2 h
      exact ⟨z, hz⟩
    · obtain ⟨t, ht, -⟩ := c4 h
      exact ⟨_, ht⟩
    · cases cls <;> simp only [argsFor, reduceCtorEq, false_implies, implies_true] <;> intro l e
      · obtain ⟨z, hz, h⟩ := c2 rfl
        exact .inr ⟨z, hz, h l e⟩
      · exact .inl ⟨trivial, trivial, c2' (.inl rfl) l e⟩
      · exact .inl ⟨trivial, trivial, c2' (.inr rfl) l e⟩
    · cases cls <;> simp only [argsFor, reduceCtorEq, false_implies, implies_true] <;> intro l e <;>
        exact .inr (c3 trivial l e)
    · cases cls <;> simp only [argsFor, reduceCtorEq, false_implies, implies_true]
      intro l e
      obtain ⟨t, ht, h⟩ := c4 rfl
      rw [e] at ht
      exact ⟨t, Option.some.inj ht, h⟩
    · cases cls <;> simp only [argsFor, reduceCtorEq, false_implies, implies_true]
      exact hm rfl

/-- The requirements are met by the example. -/
example : Buildable exEnv .asym exBuildData exBuildArgs :=
  (construction_iff exEnv .asym exBuildData exBuildArgs).1 ⟨_, rfl⟩

/-- **C87** (mixing variables). The positions stored with a mixed logit model are, in order, the first
columns of the design matrix named by the mixing variables. -/
theorem model_mixing_positions [MulZeroOneClass V] {env : Env V} {df : Frame V} {a : ModelArgs V}
    {m : ChoiceModel V} (hm : createChoiceModel env "Mixed Logit" df a = .ok m) {l : List String}
    (hl : a.mixingVars = some l) :
    ∃ pos : List ℕ, m.mixingPos = some pos ∧ pos.length = l.length ∧
      ∀ i (h : i < l.length) (h' : i < pos.length), m.indVarNames[pos[i]]? = some (.str l[i]) ∧
        ∀ j < pos[i], m.indVarNames[j]? ≠ some (.str l[i]) := by
  have hk : modelTypeToClass.lookup "Mixed Logit" = some .mixed := by decide
  simp only [createChoiceModel, hk, classInit_iff, baseInit_ok, initBuild_iff] at hm
  obtain ⟨-, -, -, -, d, -, h1, rfl⟩ := hm
  refine ⟨l.map fun v => d.2.findIdx (PyVal.eqStr v), ?_, by simp, ?_⟩
  · simp [argsFor, hl]
  · intro i h h'
    simp only [List.getElem_map]
    have hmem := h1 l hl l[i] (List.getElem_mem h)
    have hlt : d.2.findIdx (PyVal.eqStr l[i]) < d.2.length :=
      List.findIdx_lt_length_of_exists ⟨_, hmem, by simp [PyVal.eqStr]⟩
    refine ⟨?_, fun j hj e => ?_⟩
    · rw [List.getElem?_eq_getElem hlt, Option.some.injEq, ← eqStr_iff]
      exact List.findIdx_getElem
    · have := List.not_of_lt_findIdx hj
      rw [List.getElem?_eq_some_iff] at e
      obtain ⟨hj', e⟩ := e
      rw [e] at this
      simp [PyVal.eqStr] at this

/-- Two variables, the second of which is mixed: position 1. -/
example : (match createChoiceModel exEnv "Mixed Logit" exBuildData
      { exBuildArgs with interceptRefPos := .none,
                         specification := [("y", .str "all_same"), ("x", .str "all_same")],
                         mixingIdCol := some "obs", mixingVars := some ["x"] } with
    | .ok m => m.mixingPos
    | .error _ => none) = some [1] := by
  decide

theorem bind_fit {F : Fitter V (List (String × PyVal V))} {m : ChoiceModel V} (h : m.cls ≠ .mixed)
    (init : List V) (kw : List (String × PyVal V)) :
    (bindSignature F).fit m init kw = F.fit m init kw := by
  simp [bindSignature, h]

theorem bind_mnl [MulZeroOneClass V] (env : Env V) {F : Fitter V (List (String × PyVal V))}
    (hF : F.noKwargs = []) (orig : ChoiceModel V) (df : Frame V) (idCol : String) (n : ℕ)
    (mnl : MnlArgs V (List (String × PyVal V))) :
    getMnlPointEst env (bindSignature F) orig df idCol n mnl = getMnlPointEst env F orig df idCol n mnl := by
  have hk : (bindSignature F).noKwargs = F.noKwargs := hF.symm
  unfold getMnlPointEst
  dsimp only
  rw [hk]
  split
  · rfl
  · split
    · rfl
    · generalize hobj : createChoiceModel env "MNL" df _ = r
      cases r with
      | error e => rfl
      | ok obj =>
        obtain ⟨-, ht, -⟩ := (factory_type env "MNL" df _).2 obj hobj
        have : obj.cls ≠ .mixed := by
          intro h
          rw [h] at ht
          revert ht
          decide
        simp only [bind, Except.bind, bind_fit this]

/-- Replicates of the other models bind: with a fitter whose parameters have defaults, the replicates are
what they would be without the check of the signature. -/
theorem other_replicates_bind [MulZeroOneClass V] {env : Env V}
    {F : Fitter V (List (String × PyVal V))} (hF : F.noKwargs = [])
    {extract : ChoiceModel V → List (PyVal V) → List V → ℕ → Except Err (List V)}
    {t : String} {df0 : Frame V} {a : ModelArgs V} {orig : ChoiceModel V}
    (horig : createChoiceModel env t df0 a = .ok orig) (hc : orig.cls ≠ .mixed) (n : ℕ)
    (mnl : MnlArgs V (List (String × PyVal V))) (kw : List (String × PyVal V)) :
    generateJackknifeReplicates env (bindSignature F) extract orig n mnl kw =
      generateJackknifeReplicates env F extract orig n mnl kw ∧
    ∀ [NatCast V] (samples : List (List V)),
      generateBootstrapReplicates env (bindSignature F) extract orig n mnl kw samples =
        generateBootstrapReplicates env F extract orig n mnl kw samples := by
  have key : ∀ df idCol, retrievePointEst env (bindSignature F) extract orig df idCol n mnl kw =
      retrievePointEst env F extract orig df idCol n mnl kw := by
    intro df idCol
    unfold retrievePointEst
    rw [bind_mnl env hF]
    have hre : ∀ init, (do
        let newObj ← recreate env orig idCol df
        (bindSignature F).fit newObj init kw) = (do
        let newObj ← recreate env orig idCol df
        F.fit newObj init kw) := by
      intro init
      cases hr : recreate env orig idCol df with
      | error e => rfl
      | ok m' =>
        have := (recreate_settings horig hr).1
        exact bind_fit (by rw [this]; exact hc) init kw
    simp only [hre]
  refine ⟨?_, ?_⟩
  · unfold generateJackknifeReplicates replicatesOn
    simp only [key]
  · intro _ samples
    unfold generateBootstrapReplicates replicatesOn
    simp only [key]

/-- The hypotheses are met: a fitter without keyword arguments, and the asymmetric example model. -/
example : ∃ orig, createChoiceModel exEnv "Asym" exBuildData exBuildArgs = .ok orig ∧ orig.cls ≠ .mixed :=
  ⟨_, rfl, by decide⟩

end Pylogit
