import Verif.Model.Construct
import Verif.Lemmas.Mappings
import Verif.Props.NestSpec
import Verif.Props.Design

/-!
# C57, C58: construction of models
-/

set_option linter.unusedSectionVars false

namespace Pylogit

variable {V : Type} [LinearOrder V]

/-- The seven documented model types. -/
def Spec.documentedTypes : List String :=
  ["MNL", "Asym", "Cloglog", "Scobit", "Uneven", "Nested Logit", "Mixed Logit"]

/-- The class each documented type stands for. -/
def Spec.classOf : ModelType → String
  | .mnl => "MNL"
  | .asym => "Asym"
  | .cloglog => "Cloglog"
  | .scobit => "Scobit"
  | .uneven => "Uneven"
  | .nested => "Nested Logit"
  | .mixed => "Mixed Logit"

/-- The number of distinct alternatives in the data. -/
def Spec.numAlternatives (df : Frame V) (altCol : String) : ℕ := (df.colList altCol).dedup.length

/-- The models with a shape parameter per alternative. -/
def Spec.UsesShapes : ModelType → Prop
  | .asym | .scobit | .uneven => True
  | _ => False

/-- The models that allow intercepts outside the index. -/
def Spec.UsesOutsideIntercepts : ModelType → Prop
  | .asym | .scobit | .uneven | .cloglog => True
  | _ => False

open Spec

theorem allIds_length (df : Frame V) (altCol : String) :
    (allIds df altCol).length = numAlternatives df altCol := by
  rw [allIds, npSort_npUnique, numAlternatives]
  refine List.Perm.length_eq ?_
  rw [List.perm_ext_iff_of_nodup (npUnique_nodup _) (List.nodup_dedup _)]
  intro a
  rw [mem_npUnique, List.mem_dedup]

theorem lookup_class (t : String) (c : ModelType) :
    modelTypeToClass.lookup t = some c ↔ t = classOf c := by
  constructor
  · intro h
    simp only [modelTypeToClass, List.lookup] at h
    split at h
    · rename_i h'; cases h; exact beq_iff_eq.1 h'
    · split at h
      · rename_i h'; cases h; exact beq_iff_eq.1 h'
      · split at h
        · rename_i h'; cases h; exact beq_iff_eq.1 h'
        · split at h
          · rename_i h'; cases h; exact beq_iff_eq.1 h'
          · split at h
            · rename_i h'; cases h; exact beq_iff_eq.1 h'
            · split at h
              · rename_i h'; cases h; exact beq_iff_eq.1 h'
              · split at h
                · rename_i h'; cases h; exact beq_iff_eq.1 h'
                · cases h
  · rintro rfl
    cases c <;> decide

theorem initChecks_ok {env : Env V} {df : Frame V} {a : ModelArgs V} :
    initChecks env df a = .ok () ↔
      (∀ c ∈ [a.altIdCol, a.obsIdCol, a.choiceCol], c ∈ df.columns) ∧
      checkNamesAndRef a.shapeNames a.shapeRefPos (numAlternatives df a.altIdCol) false = .ok () ∧
      checkNamesAndRef a.interceptNames a.interceptRefPos (numAlternatives df a.altIdCol) true = .ok () ∧
      checkNestSpecArg env.isInt a.nestSpec (allIds df a.altIdCol) = .ok () := by
  rw [← ensureColumns_ok]
  simp only [initChecks, allIds_length, bind, Except.bind]
  cases ensureColumnsInDataframe [a.altIdCol, a.obsIdCol, a.choiceCol] df <;>
  cases checkNamesAndRef a.shapeNames a.shapeRefPos (numAlternatives df a.altIdCol) false <;>
  cases checkNamesAndRef a.interceptNames a.interceptRefPos (numAlternatives df a.altIdCol) true <;>
  simp

theorem addIntercept_columns [One V] (spec : List (String × PyVal V)) (df : Frame V) (c : String)
    (hc : c ∈ df.columns) : c ∈ (addIntercept spec df).columns := by
  unfold addIntercept
  split_ifs
  · exact List.mem_append_left _ hc
  · exact hc

theorem addIntercept_colList [One V] (spec : List (String × PyVal V)) (df : Frame V) (c : String)
    (hc : c ∈ df.columns) : (addIntercept spec df).colList c = df.colList c := by
  unfold addIntercept
  split_ifs with h
  · have : c ≠ "intercept" := fun e => h.2 (e ▸ hc)
    simp [Frame.colList, this]
  · rfl

theorem addIntercept_idem [One V] (spec : List (String × PyVal V)) (df : Frame V) :
    addIntercept spec (addIntercept spec df) = addIntercept spec df := by
  by_cases h : "intercept" ∈ spec.map Prod.fst ∧ "intercept" ∉ df.columns
  · have h2 : addIntercept spec df =
        { columns := df.columns ++ ["intercept"]
          numRows := df.numRows
          val := fun c r => if c = "intercept" then 1 else df.val c r } := by
      rw [addIntercept, if_pos h]
    rw [h2, addIntercept, if_neg]
    simp
  · have h2 : addIntercept spec df = df := by rw [addIntercept, if_neg h]
    rw [h2, h2]

theorem initBuild_attrs [MulZeroOneClass V] {env : Env V} {cls : ModelType} {name : String}
    {df : Frame V} {a : ModelArgs V} {m : ChoiceModel V} (h : initBuild env cls name df a = .ok m) :
    m.cls = cls ∧ m.displayName = name ∧ m.data = df ∧ m.args = a := by
  unfold initBuild at h
  simp only [bind, Except.bind] at h
  split at h
  · cases h
  split at h
  · cases h
  split at h
  · cases h
  split at h
  · cases h
  split at h
  · cases h
  cases h
  exact ⟨rfl, rfl, rfl, rfl⟩

theorem baseInit_ok [MulZeroOneClass V] {env : Env V} {cls : ModelType} {name : String}
    {df : Frame V} {a : ModelArgs V} {m : ChoiceModel V} :
    baseInit env cls name df a = .ok m ↔ initChecks env df a = .ok () ∧
      initBuild env cls name (addIntercept a.specification df) a = .ok m := by
  unfold baseInit
  cases initChecks env df a <;> simp [bind, Except.bind]

theorem baseInit_attrs [MulZeroOneClass V] {env : Env V} {cls : ModelType} {name : String}
    {df : Frame V} {a : ModelArgs V} {m : ChoiceModel V} (h : baseInit env cls name df a = .ok m) :
    m.cls = cls ∧ m.displayName = name ∧ m.data = addIntercept a.specification df ∧ m.args = a :=
  initBuild_attrs (baseInit_ok.1 h).2

/-- Running the constructor again on the table a model holds gives the same model. -/
theorem baseInit_again [MulZeroOneClass V] {env : Env V} {cls : ModelType} {name : String}
    {df : Frame V} {a : ModelArgs V} {m : ChoiceModel V} (h : baseInit env cls name df a = .ok m) :
    baseInit env cls name m.data m.args = .ok m := by
  obtain ⟨-, -, hd, ha⟩ := baseInit_attrs h
  obtain ⟨h1, h2⟩ := baseInit_ok.1 h
  rw [hd, ha]
  refine baseInit_ok.2 ⟨?_, by rw [addIntercept_idem]; exact h2⟩
  rw [initChecks_ok] at h1 ⊢
  obtain ⟨c1, c2, c3, c4⟩ := h1
  have hal : a.altIdCol ∈ df.columns := c1 _ (by simp)
  have hn : numAlternatives (addIntercept a.specification df) a.altIdCol =
      numAlternatives df a.altIdCol := by
    rw [numAlternatives, addIntercept_colList _ _ _ hal, numAlternatives]
  have hi : allIds (addIntercept a.specification df) a.altIdCol = allIds df a.altIdCol := by
    rw [allIds, addIntercept_colList _ _ _ hal, allIds]
  rw [hn, hi]
  exact ⟨fun c hc => addIntercept_columns _ _ _ (c1 c hc), c2, c3, c4⟩

/-- The class a model is built by, its display name, and what the constructor passes on. -/
theorem classInit_ok [MulZeroOneClass V] {env : Env V} {cls : ModelType} {df : Frame V}
    {a : ModelArgs V} {m : ChoiceModel V} (h : classInit env cls df a = .ok m) :
    baseInit env cls (displayNameOf (classOf cls)) df m.args = .ok m ∧
      classInit env cls m.data m.args = baseInit env cls (displayNameOf (classOf cls)) m.data m.args ∧
      m.args.altIdCol = a.altIdCol ∧ m.args.obsIdCol = a.obsIdCol ∧ m.args.choiceCol = a.choiceCol ∧
      m.args.specification = a.specification ∧ m.args.names = a.names ∧
      (UsesShapes cls → m.args.shapeNames = a.shapeNames) ∧
      (UsesOutsideIntercepts cls → m.args.interceptNames = a.interceptNames ∧
        m.args.interceptRefPos = a.interceptRefPos) ∧
      (cls = .asym → m.args.shapeRefPos = a.shapeRefPos ∧ ∃ z, a.shapeRefPos = .int z) ∧
      (cls ≠ .asym → m.args.shapeRefPos = .none) ∧
      (cls = .nested → m.args.nestSpec = a.nestSpec) ∧
      (cls = .mixed → m.args.mixingVars = a.mixingVars ∧ m.args.mixingIdCol = a.mixingIdCol) := by
  cases cls with
  | mnl =>
    simp only [classInit] at h
    split_ifs at h with hr
    · push Not at hr
      rw [hr] at h
      obtain ⟨-, -, -, ha⟩ := baseInit_attrs h
      rw [ha]
      simp [classInit, h, classOf, UsesShapes, UsesOutsideIntercepts, hr]
  | asym =>
    simp only [classInit] at h
    split at h
    · rename_i z hz
      rw [hz] at h
      obtain ⟨-, -, -, ha⟩ := baseInit_attrs h
      rw [ha]
      simp [classInit, h, classOf, hz]
    · cases h
  | cloglog =>
    simp only [classInit] at h
    obtain ⟨-, -, -, ha⟩ := baseInit_attrs h
    rw [ha]
    simp [classInit, h, classOf, UsesShapes]
  | scobit =>
    simp only [classInit] at h
    obtain ⟨-, -, -, ha⟩ := baseInit_attrs h
    rw [ha]
    simp [classInit, h, classOf]
  | uneven =>
    simp only [classInit] at h
    obtain ⟨-, -, -, ha⟩ := baseInit_attrs h
    rw [ha]
    simp [classInit, h, classOf]
  | nested =>
    simp only [classInit] at h
    split at h
    · cases h
    · rename_i l hl
      rw [hl] at h
      obtain ⟨-, -, -, ha⟩ := baseInit_attrs h
      rw [ha]
      simp [classInit, h, classOf, hl, UsesShapes, UsesOutsideIntercepts]
  | mixed =>
    simp only [classInit] at h
    split_ifs at h with hr
    · push Not at hr
      rw [hr] at h
      obtain ⟨-, -, -, ha⟩ := baseInit_attrs h
      rw [ha]
      simp [classInit, h, classOf, UsesShapes, UsesOutsideIntercepts, hr]

theorem abbrev_display (cls : ModelType) :
    getModelAbbrev (displayNameOf (classOf cls)) = .ok (classOf cls) := by
  cases cls <;> decide

/-! ## C58 -/

/-- **C58** (types). Any other string is refused with a `ValueError`; a model that is built under a type
is of the class the type stands for, and holds the caller's arguments. -/
theorem factory_type [MulZeroOneClass V] (env : Env V) (t : String) (df : Frame V) (a : ModelArgs V) :
    (t ∉ documentedTypes → createChoiceModel env t df a = .error .valueError) ∧
    ∀ m, createChoiceModel env t df a = .ok m →
      t ∈ documentedTypes ∧ t = classOf m.cls ∧ getModelAbbrev m.displayName = .ok t ∧
      m.args.altIdCol = a.altIdCol ∧ m.args.obsIdCol = a.obsIdCol ∧ m.args.choiceCol = a.choiceCol ∧
      m.args.specification = a.specification ∧ m.args.names = a.names := by
  constructor
  · intro ht
    unfold createChoiceModel
    cases h : modelTypeToClass.lookup t with
    | none => rfl
    | some c =>
      rw [lookup_class] at h
      subst h
      exact absurd (by cases c <;> decide) ht
  · intro m hm
    unfold createChoiceModel at hm
    cases h : modelTypeToClass.lookup t with
    | none => simp [h] at hm
    | some c =>
      simp only [h] at hm
      rw [lookup_class] at h
      subst h
      obtain ⟨h1, -, e1, e2, e3, e4, e5, -⟩ := classInit_ok hm
      obtain ⟨hc, hn, -, -⟩ := baseInit_attrs h1
      rw [hc, hn]
      exact ⟨by cases c <;> decide, rfl, abbrev_display c, e1, e2, e3, e4, e5⟩

/-- **C58** (re-creation). Taking a model apart and building it again from its own table, as the bootstrap
does with its samples, gives the same model: same class, design, names, nests, mixing variables. -/
theorem recreate_same [MulZeroOneClass V] {env : Env V} {t : String} {df : Frame V} {a : ModelArgs V}
    {m : ChoiceModel V} (hm : createChoiceModel env t df a = .ok m) :
    recreate env m m.args.obsIdCol m.data = .ok m := by
  obtain ⟨-, h⟩ := factory_type env t df a
  obtain ⟨-, ht, hab, -⟩ := h m hm
  unfold recreate
  rw [hab]
  unfold createChoiceModel at hm ⊢
  have hl : modelTypeToClass.lookup t = some m.cls := (lookup_class _ _).2 ht
  simp only [hl, bind, Except.bind] at hm ⊢
  obtain ⟨h1, h2, -⟩ := classInit_ok hm
  have : ({ m.args with obsIdCol := m.args.obsIdCol } : ModelArgs V) = m.args := rfl
  rw [this, h2]
  exact baseInit_again h1

/-- **C58** (re-creation on other data). On any table, the re-created model is of the same class and has
the same settings except for the observation id column. -/
theorem recreate_settings [MulZeroOneClass V] {env : Env V} {t : String} {df df' : Frame V}
    {a : ModelArgs V} {m m' : ChoiceModel V} {newId : String}
    (hm : createChoiceModel env t df a = .ok m) (hm' : recreate env m newId df' = .ok m') :
    m'.cls = m.cls ∧ m'.displayName = m.displayName ∧
      m'.args = { m.args with obsIdCol := newId } := by
  obtain ⟨-, h⟩ := factory_type env t df a
  obtain ⟨-, ht, hab, -⟩ := h m hm
  unfold recreate at hm'
  rw [hab] at hm'
  unfold createChoiceModel at hm hm'
  have hl : modelTypeToClass.lookup t = some m.cls := (lookup_class _ _).2 ht
  simp only [hl, bind, Except.bind] at hm hm'
  obtain ⟨h1, -⟩ := classInit_ok hm
  obtain ⟨h2, -⟩ := classInit_ok hm'
  have e1 := (baseInit_attrs h1).2.1
  obtain ⟨e2, e3, -, -⟩ := baseInit_attrs h2
  refine ⟨e2, by rw [e3, e1], ?_⟩
  generalize hcls : m.cls = cls at *
  cases cls with
  | mnl =>
    simp only [classInit] at hm hm'
    split_ifs at hm hm'
    rw [(baseInit_attrs hm').2.2.2, (baseInit_attrs hm).2.2.2]
  | mixed =>
    simp only [classInit] at hm hm'
    split_ifs at hm hm'
    rw [(baseInit_attrs hm').2.2.2, (baseInit_attrs hm).2.2.2]
  | asym =>
    simp only [classInit] at hm hm'
    split at hm
    · split at hm'
      · rw [(baseInit_attrs hm').2.2.2, (baseInit_attrs hm).2.2.2]
      · cases hm'
    · cases hm
  | nested =>
    simp only [classInit] at hm hm'
    split at hm
    · cases hm
    · split at hm'
      · cases hm'
      · rw [(baseInit_attrs hm').2.2.2, (baseInit_attrs hm).2.2.2]
  | _ =>
    simp only [classInit] at hm hm'
    rw [(baseInit_attrs hm').2.2.2, (baseInit_attrs hm).2.2.2]

/-! ## C57 -/

theorem checkNamesAndRef_ok {names : Option (List String)} {ref : PyRef} {n : ℕ} {b : Bool} :
    checkNamesAndRef names ref n b = .ok () ↔
      ∀ l, names = some l →
        (ref = .none ∧ b = false ∧ l.length = n) ∨
        ∃ z : ℤ, ref = .int z ∧ 0 ≤ z ∧ z < n ∧ l.length + 1 = n := by
  cases names with
  | none => simp [checkNamesAndRef]
  | some l =>
    simp only [checkNamesAndRef, Option.some.injEq, forall_eq']
    cases ref with
    | other => simp [ensureRefPositionIsValid, bind, Except.bind]
    | none =>
      cases b
      · simp only [ensureRefPositionIsValid, checkLengthOfNames, bind, Except.bind]
        by_cases h : l.length = n
        · simp [h]
        · have : ((l.length : ℕ) : ℤ) ≠ (n : ℤ) := by exact_mod_cast h
          simp [h, this]
      · simp [ensureRefPositionIsValid, bind, Except.bind]
    | int z =>
      by_cases hz : 0 ≤ z ∧ z ≤ (n : ℤ) - 1
      · by_cases hl : ((l.length : ℕ) : ℤ) = (n : ℤ) - 1
        · have h1 : l.length + 1 = n := by omega
          simp [ensureRefPositionIsValid, checkLengthOfNames, bind, Except.bind, hz, hl, h1]
          omega
        · have h1 : ¬ l.length + 1 = n := by omega
          simp [ensureRefPositionIsValid, checkLengthOfNames, bind, Except.bind, hz, hl, h1]
      · have h1 : ¬ (0 ≤ z ∧ z < n) := by omega
        simp only [ensureRefPositionIsValid, bind, Except.bind, hz, if_false, reduceCtorEq, false_iff]
        rintro (h | ⟨z', h, ha, hb, -⟩)
        · cases h.1
        · cases h; exact h1 ⟨ha, hb⟩

/-- **C57**. For every model that is built: named outside intercepts have an integer reference position
that is a position of an alternative, and one name per other alternative; named shapes likewise for
the asymmetric model, while scobit and uneven take one name for every alternative. -/
theorem names_and_reference [MulZeroOneClass V] {env : Env V} {t : String} {df : Frame V}
    {a : ModelArgs V} {m : ChoiceModel V} (hm : createChoiceModel env t df a = .ok m) :
    (UsesOutsideIntercepts m.cls → ∀ l, a.interceptNames = some l →
      ∃ z : ℤ, a.interceptRefPos = .int z ∧ 0 ≤ z ∧ z < numAlternatives df a.altIdCol ∧
        l.length + 1 = numAlternatives df a.altIdCol) ∧
    (m.cls = .asym → (∃ z : ℤ, a.shapeRefPos = .int z) ∧ ∀ l, a.shapeNames = some l →
      ∃ z : ℤ, a.shapeRefPos = .int z ∧ 0 ≤ z ∧ z < numAlternatives df a.altIdCol ∧
        l.length + 1 = numAlternatives df a.altIdCol) ∧
    ((m.cls = .scobit ∨ m.cls = .uneven) → ∀ l, a.shapeNames = some l →
      l.length = numAlternatives df a.altIdCol) := by
  obtain ⟨-, h⟩ := factory_type env t df a
  obtain ⟨-, ht, -⟩ := h m hm
  unfold createChoiceModel at hm
  have hl : modelTypeToClass.lookup t = some m.cls := (lookup_class _ _).2 ht
  simp only [hl] at hm
  obtain ⟨h1, -, e1, -, -, -, -, sn, oi, as, nas, -⟩ := classInit_ok hm
  obtain ⟨-, c2, c3, -⟩ := initChecks_ok.1 (baseInit_ok.1 h1).1
  rw [checkNamesAndRef_ok] at c2 c3
  rw [e1] at c2 c3
  refine ⟨fun hu l hln => ?_, fun hasym => ?_, fun hsu l hln => ?_⟩
  · obtain ⟨o1, o2⟩ := oi hu
    rcases c3 l (by rw [o1, hln]) with ⟨-, hb, -⟩ | hz
    · cases hb
    · rwa [o2] at hz
  · obtain ⟨a1, z, a2⟩ := as hasym
    refine ⟨⟨z, a2⟩, fun l hln => ?_⟩
    have hsh := sn (by rw [hasym]; trivial)
    rcases c2 l (by rw [hsh, hln]) with ⟨hr, -, -⟩ | hz
    · rw [a1, a2] at hr; cases hr
    · rwa [a1] at hz
  · have hsh := sn (by rcases hsu with h | h <;> rw [h] <;> trivial)
    have hr := nas (by rcases hsu with h | h <;> rw [h] <;> decide)
    rcases c2 l (by rw [hsh, hln]) with ⟨-, -, hlen⟩ | ⟨z, hz, -⟩
    · exact hlen
    · rw [hr] at hz; cases hz

/-- **C57** (rejections). MNL and mixed logit refuse any reference position for intercepts; the
asymmetric model refuses anything but an `int` for the shapes; a nested logit needs nests. -/
theorem construction_refusals [MulZeroOneClass V] (env : Env V) (df : Frame V) (a : ModelArgs V) :
    (a.interceptRefPos ≠ .none → createChoiceModel env "MNL" df a = .error .valueError ∧
      createChoiceModel env "Mixed Logit" df a = .error .valueError) ∧
    ((∀ z, a.shapeRefPos ≠ .int z) → createChoiceModel env "Asym" df a = .error .valueError) ∧
    (a.nestSpec = none → createChoiceModel env "Nested Logit" df a = .error .valueError) := by
  have l1 : modelTypeToClass.lookup "MNL" = some .mnl := by decide
  have l2 : modelTypeToClass.lookup "Mixed Logit" = some .mixed := by decide
  have l3 : modelTypeToClass.lookup "Asym" = some .asym := by decide
  have l4 : modelTypeToClass.lookup "Nested Logit" = some .nested := by decide
  refine ⟨fun h => ⟨?_, ?_⟩, fun h => ?_, fun h => ?_⟩
  · simp [createChoiceModel, l1, classInit, h]
  · simp [createChoiceModel, l2, classInit, h]
  · simp only [createChoiceModel, l3, classInit]
  · simp [createChoiceModel, l4, classInit, h]

/-- The caller's columns are never changed: the model's table has every column of the data with the same
cells, and at most one more column, `intercept`, filled with ones. -/
theorem construction_keeps_data [MulZeroOneClass V] {env : Env V} {t : String} {df : Frame V}
    {a : ModelArgs V} {m : ChoiceModel V} (hm : createChoiceModel env t df a = .ok m) :
    (∀ c ∈ df.columns, m.data.colList c = df.colList c) ∧
      (m.data.columns = df.columns ∨ (m.data.columns = df.columns ++ ["intercept"] ∧
        m.data.colList "intercept" = List.replicate df.numRows 1)) := by
  unfold createChoiceModel at hm
  cases h : modelTypeToClass.lookup t with
  | none => simp [h] at hm
  | some c =>
    simp only [h] at hm
    obtain ⟨h1, -⟩ := classInit_ok hm
    rw [(baseInit_attrs h1).2.2.1]
    refine ⟨fun c hc => addIntercept_colList _ _ _ hc, ?_⟩
    unfold addIntercept
    split_ifs
    · exact .inr ⟨rfl, by simp [Frame.colList]⟩
    · exact .inl rfl

/-! ## Concrete models -/

/-- Two observations of three alternatives. -/
def exBuildData : Frame ℤ where
  columns := ["alt", "obs", "y", "x"]
  numRows := 6
  val c r :=
    if c = "alt" then (![1, 2, 3, 1, 2, 3] : Fin 6 → ℤ) r
    else if c = "obs" then (![1, 1, 1, 2, 2, 2] : Fin 6 → ℤ) r
    else if c = "y" then (![1, 0, 0, 0, 0, 1] : Fin 6 → ℤ) r
    else (![5, 6, 7, 8, 9, 4] : Fin 6 → ℤ) r

/-- Formatting functions; every number is an `int`, no column is bad. -/
def exEnv : Env ℤ where
  fmt := fun z => if z = 1 then "1" else if z = 2 then "2" else "3"
  fmtList := fun _ => "[..]"
  isInt := fun _ => true
  badCol := fun _ => false

/-- A model with outside intercepts: alternative 3 (position 2) is the reference. -/
def exBuildArgs : ModelArgs ℤ where
  altIdCol := "alt"
  obsIdCol := "obs"
  choiceCol := "y"
  specification := [("x", .str "all_same")]
  names := none
  interceptRefPos := .int 2
  shapeRefPos := .int 0
  interceptNames := some ["ASC 1", "ASC 2"]
  shapeNames := some ["shape 2", "shape 3"]
  nestSpec := none
  mixingIdCol := none
  mixingVars := none

/-- Whether a construction succeeds. -/
def built (r : Except Err (ChoiceModel ℤ)) : Bool :=
  match r with
  | .ok _ => true
  | .error _ => false

/-- The example is accepted as an asymmetric logit, so the hypotheses of the theorems above are met;
with a reference position out of range it is refused. -/
example : built (createChoiceModel exEnv "Asym" exBuildData exBuildArgs) = true ∧
    built (createChoiceModel exEnv "Asym" exBuildData { exBuildArgs with interceptRefPos := .int 3 })
      = false := by
  decide

/-- **C57** (gap). Without names nothing is checked: an impossible reference position is accepted. -/
theorem unnamed_reference_unchecked :
    ∃ m, createChoiceModel exEnv "Scobit" exBuildData
        { exBuildArgs with interceptNames := none, shapeNames := none, interceptRefPos := .int 99 }
          = .ok m ∧ m.args.interceptRefPos = .int 99 := by
  exact ⟨_, rfl, rfl⟩

end Pylogit
