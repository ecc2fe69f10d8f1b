import Verif.Props.RenumberBuild
import Verif.Props.LikelihoodRatioCases

/-!
# C131: concrete cases

The three alternatives of a table are numbered backwards.
-/

open Matrix

namespace Pylogit

open Spec

noncomputable section

namespace Renumbering

/-- Alternatives 1, 2, 3 become 3, 2, 1. -/
def exBack : ℝ ≃ ℝ := Equiv.subLeft 4

/-- A coefficient for the first alternative, and one for the two others. -/
def exParts : List (String × SpecVal ℝ) := [("x", .groups [.inl 1, .inr [2, 3]])]

def exPartsArgs : ModelArgs ℝ :=
  { exLogitArgs with
    specification := encodeAll exParts, names := some [("x", .list [.str "first", .str "others"])]
    nestSpec := some (encodeNests exPairNests), mixingIdCol := some "obs", mixingVars := some ["others"] }

def exPartsArgs' : ModelArgs ℝ :=
  { exPartsArgs with
    specification := encodeAll (renumberSpec exBack exParts)
    nestSpec := some (encodeNests (renumberNests exBack exPairNests)) }

theorem exParts_same : SameButNumbers exBack exPartsArgs exPartsArgs' exParts :=
  ⟨rfl, rfl, .inr ⟨_, rfl, rfl⟩, rfl⟩

theorem exParts_roles : SameRoles exPartsArgs exPartsArgs' :=
  ⟨rfl, ⟨rfl, by simp [exPartsArgs, exLogitArgs]⟩, ⟨rfl, by simp [exPartsArgs, exLogitArgs]⟩,
    rfl, by simp [exPartsArgs, exLogitArgs]⟩

theorem exParts_buildable (env : Env ℝ) (henv : env.badCol = fun _ => false) (hint : env.isInt = fun _ => true)
    {cls : ModelType} (hcls : cls = .scobit ∨ cls = .nested ∨ cls = .mixed ∨ cls = .mnl) :
    Buildable env cls exThreeAlts exPartsArgs := by
  have hcol : exThreeAlts.colList exPartsArgs.altIdCol = [1, 2, 3] := by
    simp [Frame.colList, exThreeAlts, exPartsArgs, exLogitArgs]
  have hadd : addIntercept exPartsArgs.specification exThreeAlts = exThreeAlts := by
    simp [addIntercept, exPartsArgs, encodeAll, exParts]
  refine ⟨by simp [exPartsArgs, exLogitArgs, exThreeAlts], fun _ => rfl, ?_, ?_, ?_, fun _ => ⟨exPairNests, rfl, ?_⟩, ?_,
    ?_, ?_⟩
  · rcases hcls with rfl | rfl | rfl | rfl <;> simp [UsesOutsideIntercepts, exPartsArgs, exLogitArgs]
  · rcases hcls with rfl | rfl | rfl | rfl <;> simp
  · rcases hcls with rfl | rfl | rfl | rfl <;> simp [exPartsArgs, exLogitArgs]
  · rw [hcol]
    exact ⟨by simp [exPairNests], by simp [exPairNests], by simp [hint], by simp [exPairNests, List.count_cons],
      by simp [exPairNests]⟩
  · simp [exPartsArgs, encodeAll, exParts, exThreeAlts]
  · simp [henv]
  · rw [hadd]
    refine ⟨(_, [.str "first", .str "others"]), (createDesignMatrix_ok_iff (altsOf_eq LR.exThree_facts.1)).2 ⟨?_, ?_, ?_, ?_,
      _, designColumns_encode .., ?_, rfl, .inr ⟨_, rfl, ?_⟩⟩, ?_⟩
    · simp [exThreeAlts]
    · simp [exPartsArgs, encodeAll, exParts, exThreeAlts]
    · rw [checkSpecDict_ok_iff]
      intro kv hkv
      obtain ⟨x, hx, rfl⟩ := List.mem_map.1 hkv
      refine wellFormed_iff_encode.2 ⟨x.2, ?_, rfl⟩
      obtain rfl := List.mem_singleton.1 hx
      simp [SpecVal.ValidFor, groupIds]
    · intro ns e
      cases e
      simp [checkNameDict, checkNameValues, checkNameValue, exPartsArgs, encodeAll, exParts, SpecVal.encode, PyVal.isStr,
        bind, Except.bind]
    · simp [described, exParts, SpecVal.columns]
    · simp [flattenNames, flattenName, bind, Except.bind]
    · intro _ l hl
      cases hl
      simp

/-- Non-vacuity of `construction_ignores_alternative_numbers`: both numberings are accepted by four classes. -/
theorem exParts_built (env : Env ℝ) (henv : env.badCol = fun _ => false) (hint : env.isInt = fun _ => true)
    {cls : ModelType} (hcls : cls = .scobit ∨ cls = .nested ∨ cls = .mixed ∨ cls = .mnl) :
    ∃ m m', createChoiceModel env (classOf cls) exThreeAlts exPartsArgs = .ok m ∧
      createChoiceModel env (classOf cls) (renumbered exThreeAlts "alt" exBack) exPartsArgs' = .ok m' ∧ m.cls = cls ∧
      m.data = exThreeAlts ∧ m.args.altIdCol = "alt" ∧ m.args.obsIdCol = "obs" ∧ m.args.choiceCol = "y" ∧
      AltsOf m'.data m'.args.altIdCol [1, 2, 3] := by
  obtain ⟨m, hm⟩ := (construction_iff env cls exThreeAlts exPartsArgs).2 (exParts_buildable env henv hint hcls)
  have hvar : exPartsArgs.altIdCol ∉ exParts.map Prod.fst := by simp [exPartsArgs, exLogitArgs, exParts]
  obtain ⟨m', hm'⟩ := (construction_ignores_alternative_numbers (g := exBack) (by simp [hint]) exParts_same hvar
    (fun _ => by simp [exPartsArgs])).1 ⟨m, hm⟩
  obtain ⟨-, h1, -, h2, h3, h4, h5, -⟩ := (factory_type _ _ _ _).2 m hm
  have hd : m.data = exThreeAlts := by
    rw [← (built_own hm).2.1, h5]
    simp [addIntercept, exPartsArgs, encodeAll, exParts]
  refine ⟨m, m', hm, hm', ?_, hd, h2, h3, h4, ?_⟩
  · have e1 := (lookup_class (classOf cls) cls).2 rfl
    have e2 := (lookup_class (classOf cls) m.cls).2 h1
    exact Option.some.inj (e2.symm.trans e1)
  · have R := renumbered_models rfl rfl exParts_roles hvar hm hm'
    rw [R.data, R.alt, hd, h2]
    refine ⟨by norm_num, fun x => ?_⟩
    have : ∀ r : Fin 3, (renumbered exThreeAlts "alt" exBack).val "alt" r = ![3, 2, 1] r := by
      intro r
      rw [renumbered_val_self (df := exThreeAlts) r]
      fin_cases r <;> simp [exThreeAlts, exBack] <;> norm_num
    constructor
    · intro hx
      simp only [List.mem_cons, List.not_mem_nil, or_false] at hx
      rcases hx with rfl | rfl | rfl
      · exact ⟨(2 : Fin 3), this 2⟩
      · exact ⟨(1 : Fin 3), this 1⟩
      · exact ⟨(0 : Fin 3), this 0⟩
    · rintro ⟨r, rfl⟩
      have h := this r
      have h' : ∀ r : Fin 3, (![3, 2, 1] : Fin 3 → ℝ) r ∈ [1, 2, 3] := by
        intro r
        fin_cases r <;> simp
      exact h ▸ h' r

theorem exParts_columns : ∃ σ, RelistsRenumbered exBack (specColumns [1, 2, 3] (renumberSpec exBack exParts))
    (specColumns [1, 2, 3] exParts) σ ∧ ∀ j, (σ j : ℕ) = j := by
  refine ⟨(Equiv.refl (Fin 2) : Fin 2 ≃ Fin 2), fun j => ?_, fun j => rfl⟩
  change Fin 2 at j
  fin_cases j <;> rfl

end Renumbering

open Renumbering

/-- Non-vacuity of `fit_ignores_alternative_numbers`: a Scobit model with a shape for each alternative. -/
example (env : Env ℝ) (henv : env.badCol = fun _ => false) (hint : env.isInt = fun _ => true) :
    ∃ m m', createChoiceModel env "Scobit" exThreeAlts exPartsArgs = .ok m ∧
      createChoiceModel env "Scobit" (renumbered exThreeAlts "alt" exBack) exPartsArgs' = .ok m' ∧
      ∃ σ, RelistsRenumbered exBack (specColumns [1, 2, 3] (renumberSpec exBack exParts)) (specColumns [1, 2, 3] exParts) σ ∧
        ∀ (c₁ c₂ c₃ : ℝ) (β : Fin (specColumns [1, 2, 3] exParts).length → ℝ),
          (fitInputs m' m'.data).logLik id m'.cls m'.args.interceptRefPos m'.args.shapeRefPos
              ⟨List.ofFn (β ∘ σ), none, some [c₃, c₂, c₁], none⟩ =
            (fitInputs m m.data).logLik id m.cls m.args.interceptRefPos m.args.shapeRefPos
              ⟨List.ofFn β, none, some [c₁, c₂, c₃], none⟩ := by
  obtain ⟨m, m', hm, hm', hcls, hd, e1, e2, e3, ha'⟩ := exParts_built env henv hint (cls := .scobit) (by simp)
  obtain ⟨σ, hσ, -⟩ := exParts_columns
  have hvar : exPartsArgs.altIdCol ∉ exParts.map Prod.fst := by simp [exPartsArgs, exLogitArgs, exParts]
  have R := renumbered_models rfl rfl exParts_roles hvar hm hm'
  refine ⟨m, m', hm, hm', σ, hσ, fun c₁ c₂ c₃ β => ?_⟩
  refine fit_ignores_alternative_numbers exBack.injective rfl rfl exParts_roles hvar hm hm' (by simp [hcls])
    (by rw [hd, e1]; exact LR.exThree_facts.1) ha' (by simp [hcls]) hσ
    (q := ⟨0, fun x => if x = 1 then c₁ else if x = 2 then c₂ else c₃⟩)
    (q' := ⟨0, fun x => if x = 3 then c₁ else if x = 2 then c₂ else c₃⟩) ?_ ?_ ?_ rfl rfl
  · intro a ha
    simp only [List.mem_cons, List.not_mem_nil, or_false] at ha
    rcases ha with rfl | rfl | rfl <;> norm_num [exBack]
  · refine ⟨by simp, by simp, fun _ => ?_, by simp [hcls]⟩
    norm_num
  · refine ⟨by simp, by simp, fun _ => ?_, by simp [hcls, R.cls]⟩
    norm_num

/-- Non-vacuity of `nested_fit_ignores_alternative_numbers`. -/
example (env : Env ℝ) (henv : env.badCol = fun _ => false) (hint : env.isInt = fun _ => true) :
    ∃ m m', createChoiceModel env "Nested Logit" exThreeAlts exPartsArgs = .ok m ∧
      createChoiceModel env "Nested Logit" (renumbered exThreeAlts "alt" exBack) exPartsArgs' = .ok m' ∧
      ∃ σ, RelistsRenumbered exBack (specColumns [1, 2, 3] (renumberSpec exBack exParts)) (specColumns [1, 2, 3] exParts) σ ∧
        ∀ (τ : Fin exPairNests.length → ℝ) (β : Fin (specColumns [1, 2, 3] exParts).length → ℝ),
          fitNestedLogLik m' (renumberNests exBack exPairNests) (List.ofFn τ ++ List.ofFn (β ∘ σ)) =
            fitNestedLogLik m exPairNests (List.ofFn τ ++ List.ofFn β) := by
  obtain ⟨m, m', hm, hm', hcls, hd, e1, e2, e3, ha'⟩ := exParts_built env henv hint (cls := .nested) (by simp)
  obtain ⟨σ, hσ, -⟩ := exParts_columns
  have hvar : exPartsArgs.altIdCol ∉ exParts.map Prod.fst := by simp [exPartsArgs, exLogitArgs, exParts]
  refine ⟨m, m', hm, hm', σ, hσ, fun τ β => ?_⟩
  exact nested_fit_ignores_alternative_numbers exBack.injective rfl rfl exParts_roles hvar rfl rfl
    (by simp [exPairNests]) (by simp [renumberNests, exPairNests])
    (π := (Equiv.refl (Fin 2) : Fin 2 ≃ Fin 2)) (fun i => by
      change Fin 2 at i
      fin_cases i <;> exact List.Perm.refl _) hm hm' hcls (by rw [hd, e1]; exact LR.exThree_facts.1) ha' hσ τ β

/-- Non-vacuity of `mixed_fit_ignores_alternative_numbers`. -/
example (G : Rng) (st : G.State) (env : Env ℝ) (henv : env.badCol = fun _ => false)
    (hint : env.isInt = fun _ => true) :
    ∃ m m', createChoiceModel env "Mixed Logit" exThreeAlts exPartsArgs = .ok m ∧
      createChoiceModel env "Mixed Logit" (renumbered exThreeAlts "alt" exBack) exPartsArgs' = .ok m' ∧
      ∃ σ, RelistsRenumbered exBack (specColumns [1, 2, 3] (renumberSpec exBack exParts)) (specColumns [1, 2, 3] exParts) σ ∧
        ∀ (μ : Fin (specColumns [1, 2, 3] exParts).length → ℝ) (sd : Fin 1 → ℝ),
          fitMixedLogLik G m' (.int (5 : ℕ)) none (some 1) (List.ofFn (μ ∘ σ) ++ List.ofFn sd) st =
            fitMixedLogLik G m (.int (5 : ℕ)) none (some 1) (List.ofFn μ ++ List.ofFn sd) st := by
  obtain ⟨m, m', hm, hm', hcls, hd, e1, e2, e3, ha'⟩ := exParts_built env henv hint (cls := .mixed) (by simp)
  obtain ⟨σ, hσ, hid⟩ := exParts_columns
  have hvar : exPartsArgs.altIdCol ∉ exParts.map Prod.fst := by simp [exPartsArgs, exLogitArgs, exParts]
  have hnames : ∀ {env : Env ℝ} {ty : String} {df : Frame ℝ} {a : ModelArgs ℝ} {m : ChoiceModel ℝ},
      createChoiceModel env ty df a = .ok m → a.names = exPartsArgs.names →
      m.indVarNames = [.str "first", .str "others"] := by
    intro env ty df a m hm ha
    obtain ⟨⟨-, -, -, -, q3⟩, -⟩ := built_cols hm
    have h := (built_own hm).1.design
    rw [q3, ha] at h
    obtain ⟨-, -, -, -, cs, -, -, -, g8⟩ := (createDesignMatrix_ok_iff rfl).1 h
    rcases g8 with ⟨e, -⟩ | ⟨ns, e, hfl⟩
    · cases e
    · cases e
      simpa [flattenNames, flattenName, bind, Except.bind, eq_comm] using hfl
  refine ⟨m, m', hm, hm', σ, hσ, fun μ sd => ?_⟩
  refine mixed_fit_ignores_alternative_numbers G exBack.injective rfl rfl exParts_roles hvar (by simp [exParts]) hm hm'
    ?_ ?_ (mixCol := "obs") rfl ?_ (k := 1) (vars := ["others"]) (vars' := ["others"]) rfl rfl rfl rfl (by simp)
    (by rw [hd, e1]; exact LR.exThree_facts.1) ha' ?_ ?_ hσ (col' := fun _ => ⟨1, by
      simp [exParts, renumberSpec, specColumns, SpecVal.columns, SpecVal.renumber]⟩) ?_ ?_ (by norm_num)
    (.inl ⟨rfl, rfl⟩) _ μ sd
  · intro ns e; cases e; simp
  · intro ns e; cases e; simp
  · rw [hd]; simp [exThreeAlts]
  · rw [hd]; simp [exThreeAlts]
  · rw [hd, e3]
    intro r
    change Fin 3 at r
    fin_cases r <;> simp [exThreeAlts]
  · intro j
    obtain rfl : j = 0 := Subsingleton.elim _ _
    rw [hnames hm rfl, hid]
    refine ⟨rfl, fun i hi => ?_⟩
    obtain rfl : i = 0 := by
      have : i < 1 := hi
      omega
    simp
  · intro j
    obtain rfl : j = 0 := Subsingleton.elim _ _
    rw [hnames hm' rfl]
    refine ⟨rfl, fun i hi => ?_⟩
    obtain rfl : i = 0 := by
      have : i < 1 := hi
      omega
    simp

/-- Non-vacuity of `fit_ignores_increasing_numbers` and `alternative_numbers_columns`: numbers 1, 2, 3 become 2, 4, 6, and
the Scobit model has a coefficient for every alternative. -/
example (env : Env ℝ) (henv : env.badCol = fun _ => false) :
    ∃ m m', createChoiceModel env "Scobit" exThreeAlts { exLogitArgs with specification := encodeAll [("x", .allDiff)] } = .ok m ∧
      createChoiceModel env "Scobit" (renumbered exThreeAlts "alt" (2 * ·))
        { exLogitArgs with specification := encodeAll [("x", .allDiff)] } = .ok m' ∧
      ∀ c₁ c₂ c₃ b₁ b₂ b₃ : ℝ,
        (fitInputs m' m'.data).logLik id m'.cls m'.args.interceptRefPos m'.args.shapeRefPos
            ⟨[b₁, b₂, b₃], none, some [c₁, c₂, c₃], none⟩ =
          (fitInputs m m.data).logLik id m.cls m.args.interceptRefPos m.args.shapeRefPos
            ⟨[b₁, b₂, b₃], none, some [c₁, c₂, c₃], none⟩ := by
  set a : ModelArgs ℝ := { exLogitArgs with specification := encodeAll [("x", .allDiff)] } with ha
  have hinj : Function.Injective (2 * · : ℝ → ℝ) := fun x y h => by
    have : 2 * x = 2 * y := h
    linarith
  have hmono : StrictMono (2 * · : ℝ → ℝ) := fun x y h => by
    show 2 * x < 2 * y
    linarith
  have hb : Buildable env .scobit exThreeAlts a := by
    have hadd : addIntercept a.specification exThreeAlts = exThreeAlts := by simp [addIntercept, ha, encodeAll]
    refine ⟨by simp [ha, exLogitArgs, exThreeAlts], fun _ => rfl, by simp [ha, exLogitArgs], by simp,
      by simp [ha, exLogitArgs], by simp, by simp [ha, encodeAll, exThreeAlts], by simp [henv], ?_⟩
    rw [hadd]
    exact ⟨_, design_success env.fmt env.fmtList exThreeAlts [("x", .allDiff)] "alt" [1, 2, 3] LR.exThree_facts.1
      (by simp [exThreeAlts]) (by simp [exThreeAlts]) (by simp [SpecVal.ValidFor])
      (by simp [SpecVal.columns]), by simp⟩
  have hvar : a.altIdCol ∉ [("x", (SpecVal.allDiff : SpecVal ℝ))].map Prod.fst := by simp [ha, exLogitArgs]
  obtain ⟨m, hm⟩ := (construction_iff env .scobit exThreeAlts a).2 hb
  let env' : Env ℝ := { env with isInt := fun _ => true }
  have hb' : Buildable env' .scobit exThreeAlts a := ⟨hb.1, hb.2, hb.3, hb.4, hb.5, by simp, hb.7, hb.8, hb.9⟩
  have hb2 : Buildable env' .scobit (renumbered exThreeAlts a.altIdCol (2 * ·)) a :=
    buildable_renumbered hinj (by simp [env']) (s := [("x", .allDiff)]) ⟨rfl, rfl, .inl ⟨rfl, rfl⟩, rfl⟩ hvar (by simp) hb'
  obtain ⟨m', hm'⟩ := (construction_iff env .scobit (renumbered exThreeAlts a.altIdCol (2 * ·)) a).2
    ⟨hb2.1, hb2.2, hb2.3, hb2.4, hb2.5, by simp, hb2.7, hb2.8, hb2.9⟩
  refine ⟨m, m', hm, hm', fun c₁ c₂ c₃ b₁ b₂ b₃ => ?_⟩
  obtain ⟨-, h1, -, h2, h3, h4, h5, -⟩ := (factory_type _ _ _ _).2 m hm
  have hcls : m.cls = .scobit := by
    have e1 := (lookup_class (classOf .scobit) .scobit).2 rfl
    have e2 := (lookup_class (classOf .scobit) m.cls).2 h1
    exact Option.some.inj (e2.symm.trans e1)
  have hd : m.data = exThreeAlts := by
    rw [← (built_own hm).2.1, h5]
    simp [addIntercept, ha, encodeAll]
  have href : ∀ {df : Frame ℝ} {m : ChoiceModel ℝ}, createChoiceModel env (classOf .scobit) df a = .ok m →
      m.args.interceptRefPos = .none ∧ m.args.shapeRefPos = .none := by
    intro df m hm
    unfold createChoiceModel at hm
    split at hm
    · cases hm
    rename_i c _
    rw [classInit_iff] at hm
    obtain ⟨-, -, d, -, -, rfl⟩ := initBuild_iff.1 (baseInit_ok.1 hm.2).2
    cases c <;> exact ⟨rfl, rfl⟩
  refine fit_ignores_increasing_numbers hmono (s := [("x", .allDiff)]) rfl rfl
    ⟨rfl, ⟨rfl, by simp [ha, exLogitArgs]⟩, ⟨rfl, by simp [ha, exLogitArgs]⟩, rfl, by simp [ha, exLogitArgs]⟩ hvar hm hm'
    (by simp [hcls]) (alts := [1, 2, 3]) (by rw [hd, h2]; exact LR.exThree_facts.1) (by simp [hcls])
    ((href hm').1.trans (href hm).1.symm) ((href hm').2.trans (href hm).2.symm)
    (q := ⟨0, fun x => if x = 1 then c₁ else if x = 2 then c₂ else c₃⟩) ?_ (by simp [specColumns, SpecVal.columns])
  refine ⟨by simp, by simp, fun _ => ?_, by simp [hcls]⟩
  norm_num

end

end Pylogit
