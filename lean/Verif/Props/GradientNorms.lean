import Verif.Model.GradientNorms
import Verif.Props.WholeFitNested
import Verif.Props.WholeFitMixed
import Verif.Props.WholeBootNested
import Verif.Props.BootGradient
import Verif.Props.EstimationChecks

/-!
# C129: the gradient norms of replicates belong to the model that was built and fitted
-/

open Matrix

namespace Pylogit

open Spec

/-! ## The estimation object -/

theorem resources_of_class (cls : ModelType) : resourcesOf (displayNameOf (classOf cls)) = .ok (cls, cls) := by
  cases cls <;> rfl

theorem built_display {env : Env ℝ} {ty : String} {df : Frame ℝ} {a : ModelArgs ℝ} {m : ChoiceModel ℝ}
    (hm : createChoiceModel env ty df a = .ok m) : m.displayName = displayNameOf (classOf m.cls) := by
  unfold createChoiceModel at hm
  split at hm
  · cases hm
  rename_i cls _
  obtain ⟨h1, -⟩ := classInit_ok hm
  obtain ⟨h2, h3, -⟩ := baseInit_attrs h1
  rw [h3, h2]

/-- **C129** (the class). `create_estimation_obj` finds, for every model the factory makes, the estimator and the
splitting function of the model's own class; a displayed name that is none of the seven is a `KeyError`. -/
theorem estimator_of_own_class :
    (∀ {env : Env ℝ} {ty : String} {df : Frame ℝ} {a : ModelArgs ℝ} {m : ChoiceModel ℝ},
      createChoiceModel env ty df a = .ok m → resourcesOf m.displayName = .ok (m.cls, m.cls) ∧
        ty = classOf m.cls) ∧
    ∀ name : String, name ∉ ["Multinomial Logit Model", "Multinomial Asymmetric Logit Model",
      "Multinomial Clog-log Model", "Multinomial Scobit Model", "Multinomial Uneven Logit Model",
      "Nested Logit Model", "Mixed Logit Model"] → resourcesOf name = .error .keyError := by
  constructor
  · intro env ty df a m hm
    exact ⟨built_display hm ▸ resources_of_class m.cls, ((factory_type env ty df a).2 m hm).2.1⟩
  · intro name hn
    simp only [List.mem_cons, List.not_mem_nil, or_false, not_or] at hn
    obtain ⟨h1, h2, h3, h4, h5, h6, h7⟩ := hn
    have : displayNameToModelType.lookup name = none := by
      simp [displayNameToModelType, displayNames, h1, h2, h3, h4, h5, h6, h7]
    rw [resourcesOf, this]

section Object

variable {m : ChoiceModel ℝ} {X : Option (DrawnDesign m.data m.design.length)}

theorem object_logit (hd : m.displayName = displayNameOf (classOf m.cls)) (hn : m.cls ≠ .nested) (hx : m.cls ≠ .mixed)
    {ridge : Option ℝ} (hc : estimationChecks (ridge.map .num) (m.data.colList m.args.obsIdCol) .none = .ok ())
    (hrows : 0 < m.data.numRows) : estimationObject m X (ridge.map .num) = logitObject m hrows ridge := by
  obtain ⟨cls, nm, dt, ds, ns, ar, ms⟩ := m
  dsimp only at hd hn hx hc hrows
  unfold estimationObject
  rw [show resourcesOf _ = _ from (congrArg resourcesOf hd).trans (resources_of_class cls)]
  cases ridge <;> cases cls <;>
    first
    | exact absurd rfl hn
    | exact absurd rfl hx
    | (simp only [Option.map] at hc
       simp [bind, Except.bind, hrows, hc])

theorem object_nested (hd : m.displayName = displayNameOf (classOf m.cls)) (hn : m.cls = .nested)
    {ns : List (String × List ℝ)} (hns : m.args.nestSpec = some (encodeNests ns))
    {rtn : Matrix (Fin m.data.numRows) (Fin ns.length) ℝ} (hr : m.data.rowsToNests m.args.altIdCol ns = .ok rtn)
    {ridge : Option ℝ} (hc : estimationChecks (ridge.map .num) (m.data.colList m.args.obsIdCol) .none = .ok ())
    (hrows : 0 < m.data.numRows) : estimationObject m X (ridge.map .num) = .ok (nestedObject m hrows rtn ridge) := by
  unfold estimationObject
  rw [hd, hn, resources_of_class]
  cases ridge <;>
    (simp only [Option.map] at hc
     simp [bind, Except.bind, hrows, hc, hns, decodeNest_encode, hr])

theorem object_mixed {X : DrawnDesign m.data m.design.length} (hd : m.displayName = displayNameOf (classOf m.cls))
    (hn : m.cls = .mixed)
    {ridge : Option ℝ} (hc : estimationChecks (ridge.map .num) (m.data.colList m.args.obsIdCol) .none = .ok ())
    (hrows : 0 < m.data.numRows) :
    estimationObject m (some X) (ridge.map .num) = .ok (mixedObject m hrows X ridge) := by
  unfold estimationObject
  rw [hd, hn, resources_of_class]
  cases ridge <;>
    (simp only [Option.map] at hc
     simp [bind, Except.bind, hrows, hc])

theorem mapM_norms {obj : LogitObject} {reps : List (List ℝ)} (hl : ∀ x ∈ reps, x.length = obj.n) :
    (reps.mapM fun x => if x.length ≠ obj.n then Except.error Err.valueError
      else .ok (euclideanNorm ((obj.est none).gradient fun k => x.getD k 0))) =
    .ok (reps.map fun x => euclideanNorm ((obj.est none).gradient fun k => x.getD k 0)) := by
  induction reps with
  | nil => rfl
  | cons x l ih =>
    rw [List.mapM_cons, ih fun y hy => hl y (by simp [hy]), if_neg (not_not.2 (hl x (by simp)))]
    rfl

theorem norms_of_object {ridge : Option (PyVal ℝ)} {obj : LogitObject} (hobj : estimationObject m X ridge = .ok obj)
    {kwarg : String} {boot jack : Option (List (List ℝ))} {reps : List (List ℝ)}
    (hreps : kwarg = "bootstrap" ∧ boot = some reps ∨ kwarg = "jackknife" ∧ jack = some reps)
    (hl : ∀ x ∈ reps, x.length = obj.n) :
    modelGradientNorms m X kwarg ridge boot jack =
      .ok (reps.map fun x => euclideanNorm ((obj.est none).gradient fun k => x.getD k 0)) := by
  unfold modelGradientNorms
  rcases hreps with ⟨rfl, rfl⟩ | ⟨rfl, rfl⟩ <;>
    simp only [ensureReplicatesKwarg, hobj, bind, Except.bind, attrValues] <;>
    exact mapM_norms hl

end Object

/-! ## Every replicate -/

/-- **C129** (every replicate). For a multinomial, clog-log, scobit, uneven or asymmetric logit model built on a table in
which every observation chose one row, `calc_gradient_norm_for_replicates` returns one number per replicate: where the
transformation is smooth and no utility is clipped, the Euclidean norm of the derivatives, at the replicate, of the
model's log-likelihood of the table with the penalty given. -/
theorem gradient_norms_of_table {env : Env ℝ} {ty : String} {df : Frame ℝ} {a : ModelArgs ℝ} {m : ChoiceModel ℝ}
    (hm : createChoiceModel env ty df a = .ok m) {s : List (String × SpecVal ℝ)}
    (hspec : m.args.specification = encodeAll s) {alts : List ℝ} (ids : List ℝ)
    (ha : AltsOf m.data m.args.altIdCol alts) (h2 : m.cls = .asym → 2 ≤ alts.length)
    {chosen : ℝ → Fin m.data.numRows} (hc : OneChoicePerObs m.data m.args.obsIdCol m.args.choiceCol chosen)
    (hn : m.cls ≠ .nested) (hx : m.cls ≠ .mixed)
    (X : Option (DrawnDesign m.data m.design.length)) (kwarg : String) (ridge : Option ℝ)
    {boot jack : Option (List (List ℝ))} {norms : List ℝ}
    (h : modelGradientNorms m X kwarg (ridge.map .num) boot jack = .ok norms) :
    ∃ (reps : List (List ℝ)) (n : ℕ) (U : (Fin n → ℝ) → Fin m.data.numRows → ℝ),
      (kwarg = "bootstrap" ∧ boot = some reps ∨ kwarg = "jackknife" ∧ jack = some reps) ∧
      DocumentedUtilities m alts (specColumns alts s) U ∧ norms.length = reps.length ∧
      (∀ x ∈ reps, x.length = n) ∧
      ∀ (i : ℕ) (θ : Fin n → ℝ), reps[i]? = some (List.ofFn θ) → SmoothAt m (specColumns alts s) θ →
        (∀ r, |U θ r| < 700) →
        ∃ g : Fin n → ℝ, HasPartials ((tableOf m ids).logLik ridge U) g θ ∧
          norms[i]? = some (Real.sqrt (∑ k, g k ^ 2)) := by
  unfold modelGradientNorms at h
  simp only [bind, Except.bind] at h
  split at h
  · cases h
  rename_i u hkw
  split at h
  · cases h
  rename_i obj hobj
  split at h
  · cases h
  rename_i reps hreps
  have hr : kwarg = "bootstrap" ∧ boot = some reps ∨ kwarg = "jackknife" ∧ jack = some reps := by
    unfold ensureReplicatesKwarg at hkw
    split at hkw
    · cases hkw
    rename_i hk
    simp only [List.mem_cons, List.not_mem_nil, or_false, not_not] at hk
    rcases hk with rfl | rfl
    · left
      simp only [if_true] at hreps
      cases boot with
      | none => cases hreps
      | some b => cases hreps; exact ⟨rfl, rfl⟩
    · right
      simp only [show ¬ ("jackknife" = "bootstrap") by decide, if_false] at hreps
      cases jack with
      | none => cases hreps
      | some b => cases hreps; exact ⟨rfl, rfl⟩
  have hl : ∀ x ∈ reps, x.length = obj.n := by
    intro x hxm
    by_contra hne
    revert h
    clear hreps hr
    induction reps generalizing norms with
    | nil => simp at hxm
    | cons y l ih =>
      rw [List.mapM_cons]
      intro h
      rcases List.mem_cons.1 hxm with rfl | hxm
      · rw [if_pos hne] at h; cases h
      · split_ifs at h
        · cases h
        · simp only [bind, Except.bind] at h
          split at h
          · cases h
          · rename_i v hv
            exact ih hxm hv
  rw [mapM_norms hl] at h
  cases h
  have hobj' : ∃ hrows, logitObject m hrows ridge = .ok obj := by
    have hd := built_display hm
    by_cases hck : estimationChecks (ridge.map .num) (m.data.colList m.args.obsIdCol) .none = .ok ()
    · by_cases hrows : 0 < m.data.numRows
      · exact ⟨hrows, (object_logit hd hn hx hck hrows).symm.trans hobj⟩
      · unfold estimationObject at hobj
        rw [hd, resources_of_class] at hobj
        simp [bind, Except.bind, hrows] at hobj
    · exfalso
      unfold estimationObject at hobj
      rw [hd, resources_of_class] at hobj
      by_cases hrows : 0 < m.data.numRows
      · cases hc2 : estimationChecks (ridge.map .num) (m.data.colList m.args.obsIdCol) .none with
        | ok u => exact hck hc2
        | error e =>
          simp only [bind, Except.bind, hrows, hc2] at hobj
          revert hobj hn hx
          cases m.cls <;> simp
      · simp [bind, Except.bind, hrows] at hobj
  obtain ⟨hrows, hlo⟩ := hobj'
  obtain ⟨U, Dom, hU, hdes, hdom⟩ := logit_describes hm hspec ids ha h2 hc hrows hlo
  refine ⟨reps, obj.n, U, hr, laid_documented hU, by simp, hl, ?_⟩
  intro i θ hi hs hb
  refine ⟨_, hdes.gradient none θ (hdom θ hs) hb, ?_⟩
  rw [List.getElem?_map, hi]
  simp only [Option.map_some, euclideanNorm]
  have : (fun k : Fin obj.n => (List.ofFn θ).getD k 0) = θ := by
    funext k
    simp
  rw [this]

/-- **C129** (what is needed). Whatever the class of the model, gradient norms of replicates come back only when the
replicates asked for are there, the ridge argument is `None` or a number, the table has rows and its observation ids
never decrease; a mixed logit model must also have been fitted before. -/
theorem gradient_norms_need {env : Env ℝ} {ty : String} {df : Frame ℝ} {a : ModelArgs ℝ} {m : ChoiceModel ℝ}
    (hm : createChoiceModel env ty df a = .ok m) {X : Option (DrawnDesign m.data m.design.length)} {kwarg : String}
    {ridge : Option (PyVal ℝ)} {boot jack : Option (List (List ℝ))} {norms : List ℝ}
    (h : modelGradientNorms m X kwarg ridge boot jack = .ok norms) :
    (kwarg = "bootstrap" ∧ boot.isSome ∨ kwarg = "jackknife" ∧ jack.isSome) ∧ RidgeArg ridge ∧
      0 < m.data.numRows ∧ (m.data.colList m.args.obsIdCol).Pairwise (· ≤ ·) ∧
      (m.cls = .mixed → X.isSome) := by
  unfold modelGradientNorms at h
  simp only [bind, Except.bind] at h
  split at h
  · cases h
  rename_i u hkw
  split at h
  · cases h
  rename_i obj hobj
  split at h
  · cases h
  rename_i reps hreps
  have hck : estimationChecks ridge (m.data.colList m.args.obsIdCol) .none = .ok () →
      RidgeArg ridge ∧ (m.data.colList m.args.obsIdCol).Pairwise (· ≤ ·) := by
    intro hc
    have := (estimation_object_iff (P := Unit) (R := Unit) (m.data.colList m.args.obsIdCol) ridge none .none none
      (fun _ _ _ => ⟨fun _ => 0, fun _ _ => 0, fun _ => 0, none⟩) _).1
      (by unfold createEstimationObj; rw [hc]; rfl)
    exact ⟨this.1.1, this.1.2.1⟩
  have h1 : estimationChecks ridge (m.data.colList m.args.obsIdCol) .none = .ok () ∧ 0 < m.data.numRows ∧
      (m.cls = .mixed → X.isSome) := by
    unfold estimationObject at hobj
    rw [built_display hm, resources_of_class] at hobj
    by_cases hrows : 0 < m.data.numRows
    · cases hc : estimationChecks ridge (m.data.colList m.args.obsIdCol) .none with
      | ok u =>
        refine ⟨rfl, hrows, fun hx => ?_⟩
        rw [hx] at hobj
        cases X with
        | none => simp [bind, Except.bind, hrows, hc] at hobj
        | some X => rfl
      | error e =>
        exfalso
        simp only [bind, Except.bind, hrows, hc] at hobj
        revert hobj
        cases m.cls <;> simp
        split
        · simp
        · split <;> simp
    · simp [bind, Except.bind, hrows] at hobj
  refine ⟨?_, (hck h1.1).1, h1.2.1, (hck h1.1).2, h1.2.2⟩
  unfold ensureReplicatesKwarg at hkw
  split at hkw
  · cases hkw
  rename_i hk
  simp only [List.mem_cons, List.not_mem_nil, or_false, not_not] at hk
  rcases hk with rfl | rfl
  · left
    simp only [if_true] at hreps
    cases boot with
    | none => cases hreps
    | some b => exact ⟨rfl, rfl⟩
  · right
    simp only [show ¬ ("jackknife" = "bootstrap") by decide, if_false] at hreps
    cases jack with
    | none => cases hreps
    | some b => exact ⟨rfl, rfl⟩

/-! ## The estimates -/

theorem logit_con {m : ChoiceModel ℝ} {hrows : 0 < m.data.numRows} {ridge : Option ℝ} {obj : LogitObject}
    (h : logitObject m hrows ridge = .ok obj) (con : Option (List (Fin obj.n))) :
    (obj.est con).gradient = (obj.est none).gradient := by
  unfold logitObject at h
  split at h
  · cases h; rfl
  · cases h
  · cases h
  · cases h
  all_goals
    simp only [bind, Except.bind, pure, Except.pure] at h
    split at h
    · cases h
    rename_i ref _
    try
      split at h
      · cases h
    cases h
    cases ref <;> rfl

theorem run_gradient {solver : Solver} {m : ChoiceModel ℝ} {obj : LogitObject} {probs : _} {con : Option (List ℤ)}
    {x : List ℝ} {r : FitResults} (h : runEstimationWith solver m obj probs con x = .ok r)
    (hcon : ∀ con, (obj.est con).gradient = (obj.est none).gradient) :
    ∃ θ : Fin obj.n → ℝ, r.split = splitParamVec m.cls (fitDims m) (List.ofFn θ) ∧
      ∑ k, r.gradient k ^ 2 = ∑ k, (obj.est none).gradient θ k ^ 2 := by
  unfold runEstimationWith at h
  simp only [bind, Except.bind] at h
  split at h
  · cases h
  split at h
  · cases h
  rename_i res _
  split at h
  · cases h
  cases h
  refine ⟨res.x, rfl, ?_⟩
  simp only [estimate, hcon]

theorem run_mixed_gradient {solver : Solver} {m : ChoiceModel ℝ} {obj : LogitObject} {d : ℕ} {probs : _}
    {con : Option (List ℤ)} {x : List ℝ} {r : FitResults}
    (h : runMixedEstimation solver m obj (d := d) probs con x = .ok r)
    (hcon : ∀ con, (obj.est con).gradient = (obj.est none).gradient) :
    ∃ θ : Fin obj.n → ℝ, r.split = splitParamVec m.cls (fitDims m) (List.ofFn θ) ∧
      ∑ k, r.gradient k ^ 2 = ∑ k, (obj.est none).gradient θ k ^ 2 := by
  unfold runMixedEstimation at h
  simp only [bind, Except.bind] at h
  split at h
  · cases h
  split at h
  · cases h
  rename_i res _
  split at h
  · cases h
  cases h
  refine ⟨res.x, rfl, ?_⟩
  simp only [estimate, hcon]

/-- What is said about a fit with results `r`: with the same penalty, `calc_gradient_norm_for_replicates` accepts all
sets of replicates with as many parameters, and gives the norm of the reported gradient wherever a replicate equals
the reported estimates. -/
def Spec.NormsMatchFit (m : ChoiceModel ℝ) (X : Option (DrawnDesign m.data m.design.length)) (ridge : Option ℝ)
    (r : FitResults) : Prop :=
  ∀ (kwarg : String) (boot jack : Option (List (List ℝ))) (reps : List (List ℝ)),
    (kwarg = "bootstrap" ∧ boot = some reps ∨ kwarg = "jackknife" ∧ jack = some reps) →
    (∀ x ∈ reps, x.length = (allParams r).length) →
    ∃ norms, modelGradientNorms m X kwarg (ridge.map .num) boot jack = .ok norms ∧ norms.length = reps.length ∧
      ∀ i : ℕ, reps[i]? = some (allParams r) → norms[i]? = some (Real.sqrt (∑ k, r.gradient k ^ 2))

theorem norms_match {m : ChoiceModel ℝ} {X : Option (DrawnDesign m.data m.design.length)} {ridge : Option ℝ}
    {r : FitResults} {obj : LogitObject} (hobj : estimationObject m X (ridge.map .num) = .ok obj)
    {θ : Fin obj.n → ℝ} (hall : allParams r = List.ofFn θ)
    (hg : ∑ k, r.gradient k ^ 2 = ∑ k, (obj.est none).gradient θ k ^ 2) : NormsMatchFit m X ridge r := by
  intro kwarg boot jack reps hreps hl
  refine ⟨_, norms_of_object hobj hreps fun x hx => by rw [hl x hx, hall, List.length_ofFn], by simp, ?_⟩
  intro i hi
  rw [List.getElem?_map, hi, hall]
  simp only [Option.map_some, euclideanNorm]
  have : (fun k : Fin obj.n => (List.ofFn θ).getD k 0) = θ := by
    funext k
    simp
  rw [this, hg]

theorem fit_checks {α : Type} {ridge : Option (PyVal ℝ)} {obs : List ℝ} {f : Unit → Except Err α} {r : α}
    (h : (estimationChecks ridge obs .none >>= f) = .ok r) : estimationChecks ridge obs .none = .ok () ∧ f () = .ok r := by
  cases hc : estimationChecks ridge obs .none with
  | error e => rw [hc] at h; cases h
  | ok u => rw [hc] at h; exact ⟨rfl, h⟩

/-- **C129** (estimates of the logit-type models). After a fit of a multinomial, clog-log, scobit, uneven or asymmetric
logit model, the gradient norm of a replicate that equals the estimates is the norm of the gradient the fit reported. -/
theorem gradient_norm_of_logit_fit {env : Env ℝ} {ty : String} {df : Frame ℝ} {a : ModelArgs ℝ} {m : ChoiceModel ℝ}
    (hm : createChoiceModel env ty df a = .ok m) {s : List (String × SpecVal ℝ)}
    (hspec : m.args.specification = encodeAll s) {alts : List ℝ} (ha : AltsOf m.data m.args.altIdCol alts)
    {solver : Solver} {args : FitArgs} {r : FitResults} (hfit : logitFit solver m args = .ok r)
    (X : Option (DrawnDesign m.data m.design.length)) : NormsMatchFit m X args.ridge r := by
  obtain ⟨x₀, hrows, obj, hobj, -, -, -, hrun⟩ := logit_run hfit
  obtain ⟨hn, hx⟩ := object_class hobj
  have hck : estimationChecks (args.ridge.map .num) (m.data.colList m.args.obsIdCol) .none = .ok () := by
    unfold logitFit at hfit
    cases hx : rawInitVals m.cls (fitDims m) args.init with
    | error e => rw [hx] at hfit; cases hfit
    | ok y => rw [hx] at hfit; exact (fit_checks hfit).1
  obtain ⟨θ, hs, hg⟩ := run_gradient hrun (logit_con hobj)
  refine norms_match ((object_logit (built_display hm) hn hx hck hrows).trans hobj) ?_ hg
  have hdes := (built_own hm).1.design
  rw [hspec] at hdes
  have h0 : 0 < m.design.length := by
    obtain ⟨-, -, -, -, cs, -, hne, hcs, -⟩ := (createDesignMatrix_ok_iff (altsOf_eq ha)).1 hdes
    rw [hcs, List.length_map]
    exact List.length_pos_iff.2 hne
  have hpos : 0 < (fitDims m).numAlts := by
    rw [show (fitDims m).numAlts = alts.length by simp [fitDims, altsOf_eq ha]]
    exact List.length_pos_of_mem ((ha.mem _).2 ⟨⟨0, hrows⟩, rfl⟩)
  have hlen : checkInitLength m.cls (fitDims m) (m.args.interceptRefPos != .none) (List.ofFn θ) = .ok () := by
    rw [(checkInitLength_iff _ _ _ _ hpos).1, List.length_ofFn, object_n hobj]
  obtain ⟨-, h⟩ := concat_split m.cls (fitDims m) _ (List.ofFn θ) h0 hpos hlen
  rw [allParams, hs]
  simpa [groupsOf, Groups.flat] using h

/-- **C129** (estimates of the nested logit model). -/
theorem gradient_norm_of_nested_fit {env : Env ℝ} {ty : String} {df : Frame ℝ} {a : ModelArgs ℝ} {m : ChoiceModel ℝ}
    (hm : createChoiceModel env ty df a = .ok m) (hcls : m.cls = .nested) {ns : List (String × List ℝ)}
    (hns : a.nestSpec = some (encodeNests ns)) {solver : Solver} {args : FitArgs} {r : FitResults}
    (hfit : nestedFit solver m ns args = .ok r) (X : Option (DrawnDesign m.data m.design.length)) :
    NormsMatchFit m X args.ridge r := by
  have hns' : m.args.nestSpec = some (encodeNests ns) := by
    unfold createChoiceModel at hm
    split at hm
    · cases hm
    rename_i cls _
    have h1 := classInit_ok hm
    rw [← hns]
    exact h1.2.2.2.2.2.2.2.2.2.2.2.1 ((baseInit_attrs h1.1).1.symm.trans hcls)
  unfold nestedFit at hfit
  cases hx : initPlain args.init with
  | error e => rw [hx] at hfit; cases hfit
  | ok y =>
    rw [hx] at hfit
    cases hrt : m.data.rowsToNests m.args.altIdCol ns with
    | error e => rw [hrt] at hfit; cases hfit
    | ok rtn =>
      rw [hrt] at hfit
      obtain ⟨hck, hfit⟩ := fit_checks hfit
      simp only [bind, Except.bind] at hfit
      split at hfit
      · cases hfit
      split at hfit
      · rename_i hrows
        obtain ⟨θ, hs, hg⟩ := run_gradient hfit fun con => rfl
        refine norms_match (object_nested (built_display hm) hcls hns' hrt hck hrows) ?_ hg
        rw [allParams, hs, hcls]
        simp [splitParamVec, splitNested]
      · cases hfit

/-- **C129** (estimates of the mixed logit model). The design matrix left by the fit, with its draws, is used again. -/
theorem gradient_norm_of_mixed_fit (g : Rng) {env : Env ℝ} {ty : String} {df : Frame ℝ} {a : ModelArgs ℝ}
    {m : ChoiceModel ℝ} (hm : createChoiceModel env ty df a = .ok m) (hcls : m.cls = .mixed) {solver : Solver}
    {args : MixedFitArgs} {st st' : g.State} {r : FitResults} (hfit : mixedFit g solver m args st = .ok r)
    {X : DrawnDesign m.data m.design.length}
    (hX : drawnDesign g m m.data m.design args.numDraws args.seed st = .ok (X, st')) :
    NormsMatchFit m (some X) args.ridge r ∧
    ∀ kwarg boot jack, kwarg = "bootstrap" ∨ kwarg = "jackknife" →
      modelGradientNorms m none kwarg (args.ridge.map .num) boot jack = .error .attributeError := by
  unfold mixedFit at hfit
  cases hx : initPlain args.init with
  | error e => rw [hx] at hfit; cases hfit
  | ok y =>
    rw [hx] at hfit
    simp only [hX, bind, Except.bind] at hfit
    cases hck : estimationChecks (args.ridge.map .num) (m.data.colList m.args.obsIdCol) .none with
    | error e => rw [hck] at hfit; cases hfit
    | ok u =>
      rw [hck] at hfit
      simp only at hfit
      split at hfit
      · cases hfit
      split at hfit
      · rename_i hrows
        obtain ⟨θ, hs, hg⟩ := run_mixed_gradient hfit fun con => rfl
        refine ⟨norms_match (object_mixed (built_display hm) hcls hck hrows) ?_ hg, ?_⟩
        · rw [allParams, hs, hcls]
          simp [splitParamVec]
        · intro kwarg boot jack hk
          have : estimationObject m none (args.ridge.map .num) = .error .attributeError := by
            unfold estimationObject
            rw [built_display hm, hcls, resources_of_class]
            simp [bind, Except.bind, hrows, hck]
          unfold modelGradientNorms
          rcases hk with rfl | rfl <;> simp [ensureReplicatesKwarg, bind, Except.bind, this]
      · cases hfit

end Pylogit
