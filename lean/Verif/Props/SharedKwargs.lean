import Verif.Model.SharedKwargs
import Verif.Props.BootstrapMle

/-!
# What happens to the caller's dictionary of keyword arguments

C118.
-/

namespace Pylogit

section

variable {V : Type}

/-- What is left in a dictionary `d` of keyword arguments afterwards: `just_point` is `True`, `method` is
the caller's if they gave one and BFGS otherwise, every other key is as it was. -/
structure Spec.PointOnly [One V] (d d' : Kwargs V) : Prop where
  justPoint : kwGet d' "just_point" = some (.num 1)
  method : kwGet d' "method" = some ((kwGet d "method").getD (.str "BFGS"))
  others : ∀ k, k ≠ "just_point" → k ≠ "method" → kwGet d' k = kwGet d k

theorem kwGet_none_iff (d : Kwargs V) (k : String) : kwGet d k = none ↔ k ∉ d.map Prod.fst := by
  simp only [kwGet, Option.map_eq_none_iff, List.find?_eq_none, decide_eq_true_eq, List.mem_map,
    not_exists, not_and]

/-- A key just set has its new value, every other key the one it had. -/
theorem kwGet_kwSet (d : Kwargs V) (k k' : String) (v : PyVal V) :
    kwGet (kwSet d k v) k' = if k' = k then some v else kwGet d k' := by
  unfold kwSet
  split
  · rename_i hk
    induction d with
    | nil => simp at hk
    | cons p d ih =>
      simp only [kwGet, List.map_cons, List.find?_cons] at *
      by_cases hp : p.1 = k
      · by_cases hk' : k' = k
        · subst hk'; simp [hp]
        · have h1 : ¬ k = k' := fun h => hk' h.symm
          have h2 : ¬ p.1 = k' := fun h => hk' (h.symm.trans hp)
          simp only [hp, if_true, h1, decide_false, hk', if_false]
          by_cases hd : k ∈ d.map Prod.fst
          · simpa [hk'] using ih hd
          · congr 1
            rw [List.find?_map]
            have : (d.map fun p => if p.1 = k then (k, v) else p) = d := by
              conv_rhs => rw [← List.map_id d]
              refine List.map_congr_left fun q hq => ?_
              have : q.1 ≠ k := fun h => hd (List.mem_map.2 ⟨q, hq, h⟩)
              simp [this]
            rw [← List.find?_map, this]
      · have hd : k ∈ d.map Prod.fst := by
          rcases List.mem_cons.1 hk with h | h
          · exact absurd h.symm hp
          · exact h
        simp only [hp, if_false]
        by_cases hpk : p.1 = k'
        · have : ¬ k' = k := fun h => hp (hpk.trans h)
          simp [hpk, this]
        · simpa [hpk] using ih hd
  · rename_i hk
    have hn := (kwGet_none_iff d k).2 hk
    simp only [kwGet, List.find?_append, Option.map_eq_none_iff] at *
    by_cases h : k' = k
    · subst h; simp [hn]
    · have : ¬ k = k' := fun h' => h h'.symm
      simp [h, this]

theorem pointKwargs_pointOnly [One V] (d : Kwargs V) : Spec.PointOnly d (pointKwargs d) := by
  have hm : kwGet (kwSet d "just_point" (.num 1)) "method" = kwGet d "method" := by
    rw [kwGet_kwSet]; simp
  unfold pointKwargs
  dsimp only
  split
  · rename_i h
    rw [← kwGet_none_iff, hm] at h
    refine ⟨?_, ?_, fun k h1 h2 => ?_⟩
    · simp [kwGet_kwSet]
    · simp [kwGet_kwSet, h]
    · simp [kwGet_kwSet, h1, h2]
  · rename_i h
    rw [not_not, ← not_iff_not.2 (kwGet_none_iff _ _) |>.trans not_not, hm] at h
    obtain ⟨v, hv⟩ := Option.ne_none_iff_exists'.1 h
    refine ⟨?_, ?_, fun k h1 h2 => ?_⟩
    · simp [kwGet_kwSet]
    · simp [kwGet_kwSet, hv]
    · simp [kwGet_kwSet, h1]

theorem kwSet_fixed {d : Kwargs V} {k : String} {v : PyVal V} (hk : k ∈ d.map Prod.fst)
    (h : ∀ p ∈ d, p.1 = k → p.2 = v) : kwSet d k v = d := by
  unfold kwSet
  rw [if_pos hk]
  conv_rhs => rw [← List.map_id d]
  refine List.map_congr_left fun q hq => ?_
  by_cases hqk : q.1 = k
  · rw [if_pos hqk]
    exact Prod.ext hqk.symm (h q hq hqk).symm
  · simp [hqk]

theorem mem_kwSet {d : Kwargs V} {k : String} {v : PyVal V} {p : String × PyVal V}
    (hp : p ∈ kwSet d k v) : p = (k, v) ∨ (p.1 ≠ k ∧ p ∈ d) := by
  unfold kwSet at hp
  split at hp
  · obtain ⟨q, hq, rfl⟩ := List.mem_map.1 hp
    by_cases h : q.1 = k
    · simp [h]
    · exact .inr ⟨by simp [h], by simpa [h] using hq⟩
  · rename_i hk
    rcases List.mem_append.1 hp with h | h
    · exact .inr ⟨fun h' => hk (List.mem_map.2 ⟨p, h, h'⟩), h⟩
    · exact .inl (by simpa using h)

theorem pointKwargs_idem [One V] (d : Kwargs V) : pointKwargs (pointKwargs d) = pointKwargs d := by
  have h := pointKwargs_pointOnly d
  have hj : kwSet (pointKwargs d) "just_point" (.num 1) = pointKwargs d := by
    refine kwSet_fixed ?_ fun p hp hpk => ?_
    · have := mt (kwGet_none_iff (pointKwargs d) "just_point").2
      simp only [h.justPoint, reduceCtorEq, not_false_eq_true, not_not, forall_const] at this
      exact this
    · have key : ∀ q ∈ kwSet d "just_point" (.num 1), q.1 = "just_point" → q.2 = .num 1 := by
        intro q hq hqk
        rcases mem_kwSet hq with h' | ⟨h', -⟩
        · rw [h']
        · exact absurd hqk h'
      unfold pointKwargs at hp
      dsimp only at hp
      split at hp
      · rcases mem_kwSet hp with h' | ⟨-, h'⟩
        · rw [h'] at hpk; simp at hpk
        · exact key p h' hpk
      · exact key p hp hpk
  have hm : "method" ∈ (pointKwargs d).map Prod.fst := by
    have := mt (kwGet_none_iff (pointKwargs d) "method").2
    simp only [h.method, reduceCtorEq, not_false_eq_true, not_not, forall_const] at this
    exact this
  have he : ∀ e : Kwargs V, pointKwargs e =
      if "method" ∉ (kwSet e "just_point" (.num 1)).map Prod.fst then
        kwSet (kwSet e "just_point" (.num 1)) "method" (.str "BFGS")
      else kwSet e "just_point" (.num 1) := fun _ => rfl
  rw [he (pointKwargs d), hj, if_neg (not_not.2 hm)]

end

section Replicates

variable {V : Type} [LinearOrder V] [MulZeroOneClass V]
variable {env : Env V} {F : Fitter V (Kwargs V)}
  {extract : ChoiceModel V → List (PyVal V) → List V → ℕ → Except Err (List V)}
  {orig : ChoiceModel V}

/-- The fitter of the model without a shared dictionary: the same `fit_mle`, given the options of a
pure point estimation. -/
def pointOnlyFitter (F : Fitter V (Kwargs V)) : Fitter V (Kwargs V) := ⟨F.fit, pointKwargs []⟩

theorem getMnlPointEstShared_fst (df : Frame V) (idCol : String) (k : ℕ)
    (mnl : MnlArgs V (Kwargs V)) :
    (getMnlPointEstShared env F orig df idCol k mnl).1 =
      getMnlPointEst env (pointOnlyFitter F) orig df idCol k
        { mnl with kwargs := mnl.kwargs.map pointKwargs } := by
  unfold getMnlPointEstShared getMnlPointEst
  rcases mnl with ⟨spec, names, init, _ | d⟩
  · by_cases hm : orig.displayName = displayNameOf "MNL"
    · rcases init with _ | x0 <;> simp [hm, pointOnlyFitter]
    · simp [hm]
  · by_cases hm : orig.displayName = displayNameOf "MNL"
    · rcases init with _ | x0 <;> simp [hm, pointOnlyFitter]
    · rcases init with _ | x0 <;> rcases spec with _ | sp <;> simp [hm, pointOnlyFitter]

theorem getMnlPointEstShared_snd (df : Frame V) (idCol : String) (k : ℕ)
    (mnl : MnlArgs V (Kwargs V)) :
    (getMnlPointEstShared env F orig df idCol k mnl).2 = mnl.kwargs.map pointKwargs := by
  unfold getMnlPointEstShared
  rcases hk : mnl.kwargs with _ | d
  · by_cases hm : orig.displayName = displayNameOf "MNL"
    · simp [hm]
    · simp [hm]
  · simp

theorem retrievePointEstShared_snd (df : Frame V) (idCol : String) (k : ℕ)
    (mnl : MnlArgs V (Kwargs V)) (kw : Kwargs V) :
    (retrievePointEstShared env F extract orig df idCol k mnl kw).2 = mnl.kwargs.map pointKwargs :=
  getMnlPointEstShared_snd df idCol k mnl

theorem retrievePointEstShared_fst (df : Frame V) (idCol : String) (k : ℕ)
    (mnl : MnlArgs V (Kwargs V)) (kw : Kwargs V) (hkw : "just_point" ∈ kw.map Prod.fst) :
    (retrievePointEstShared env F extract orig df idCol k mnl kw).1 =
      retrievePointEst env (pointOnlyFitter F) extract orig df idCol k
        { mnl with kwargs := mnl.kwargs.map pointKwargs } kw := by
  unfold retrievePointEstShared
  dsimp only
  rw [getMnlPointEstShared_fst]
  simp only [retrievePointEst, not_not.2 hkw, if_false, pointOnlyFitter]

omit [LinearOrder V] in
theorem kwargs_twice (o : Option (Kwargs V)) :
    (o.map pointKwargs).map pointKwargs = o.map pointKwargs := by
  rcases o with _ | d
  · rfl
  · simp [pointKwargs_idem]

theorem replicatesShared_snd (idCol : String) (k : ℕ) (kw : Kwargs V)
    (l : List (Except Err (Frame V))) (mnl : MnlArgs V (Kwargs V)) :
    (replicatesShared env F extract orig idCol k kw l mnl).2 =
      match l with
      | .ok _ :: _ => mnl.kwargs.map pointKwargs
      | _ => mnl.kwargs := by
  induction l generalizing mnl with
  | nil => rfl
  | cons a l ih =>
    rcases a with e | df
    · rfl
    · dsimp only
      unfold replicatesShared
      have h2 := retrievePointEstShared_snd (env := env) (F := F) (extract := extract) (orig := orig)
        df idCol k mnl kw
      rcases hr0 : retrievePointEstShared env F extract orig df idCol k mnl kw with ⟨r, d⟩
      rw [hr0] at h2
      dsimp only at h2
      subst h2
      rcases r with e | x
      · rfl
      · dsimp only
        rcases assignRow k x with e | row
        · rfl
        · dsimp only
          have h := ih { mnl with kwargs := mnl.kwargs.map pointKwargs }
          have h' : (replicatesShared env F extract orig idCol k kw l
              { mnl with kwargs := mnl.kwargs.map pointKwargs }).2 = mnl.kwargs.map pointKwargs := by
            rw [h]
            split
            · exact kwargs_twice _
            · rfl
          rcases hr : replicatesShared env F extract orig idCol k kw l
            { mnl with kwargs := mnl.kwargs.map pointKwargs } with ⟨r, d'⟩
          rw [hr] at h'
          rcases r with e | rows <;> exact h'

theorem replicatesShared_fst (idCol : String) (k : ℕ) (kw : Kwargs V)
    (hkw : "just_point" ∈ kw.map Prod.fst) (frames : List (Frame V)) (mnl : MnlArgs V (Kwargs V)) :
    (replicatesShared env F extract orig idCol k kw (frames.map .ok) mnl).1 =
      replicatesOn env (pointOnlyFitter F) extract orig idCol k
        { mnl with kwargs := mnl.kwargs.map pointKwargs } kw frames := by
  induction frames generalizing mnl with
  | nil => rfl
  | cons df l ih =>
    rw [List.map_cons]
    unfold replicatesShared
    have h1 := retrievePointEstShared_fst (env := env) (F := F) (extract := extract) (orig := orig)
      df idCol k mnl kw hkw
    have h2 := retrievePointEstShared_snd (env := env) (F := F) (extract := extract) (orig := orig)
      df idCol k mnl kw
    rcases hr0 : retrievePointEstShared env F extract orig df idCol k mnl kw with ⟨r, d⟩
    rw [hr0] at h1 h2
    dsimp only at h1 h2
    subst h2
    have hi := ih { mnl with kwargs := mnl.kwargs.map pointKwargs }
    dsimp only at hi
    rw [kwargs_twice] at hi
    unfold replicatesOn at hi ⊢
    rw [List.mapM_cons, ← h1]
    rcases r with e | x
    · rfl
    · dsimp only
      simp only [bind, Except.bind]
      rcases assignRow k x with e | row
      · rfl
      · dsimp only
        simp only [bind, Except.bind] at hi
        rw [← hi]
        rcases replicatesShared env F extract orig idCol k kw (l.map .ok)
          { mnl with kwargs := mnl.kwargs.map pointKwargs } with ⟨r, d'⟩
        rcases r with e | rows <;> rfl

end Replicates

section C118

variable {V : Type} [LinearOrder V] [MulZeroOneClass V]
variable {env : Env V} {F : Fitter V (Kwargs V)}
  {extract : ChoiceModel V → List (PyVal V) → List V → ℕ → Except Err (List V)}
  {orig : ChoiceModel V}

/-- C118, the jackknife: on data with at least one row the dictionary the caller passed as
`mnl_fit_kwargs` has been changed when `generate_jackknife_replicates` returns or raises, whichever it
does: it now asks for a point estimate only. -/
theorem jackknife_changes_kwargs (hrows : 0 < orig.data.numRows) (k : ℕ) (mnl : MnlArgs V (Kwargs V))
    (kw : Kwargs V) {d : Kwargs V} (hd : mnl.kwargs = some d) :
    ∃ d', (generateJackknifeShared env F extract orig k mnl kw).2 = some d' ∧ Spec.PointOnly d d' := by
  refine ⟨pointKwargs d, ?_, pointKwargs_pointOnly d⟩
  unfold generateJackknifeShared
  rw [replicatesShared_snd]
  have hne : jackknifeFrames orig.data orig.args.obsIdCol ≠ [] := by
    unfold jackknifeFrames
    rw [Ne, List.map_eq_nil_iff]
    intro h
    have hmem : orig.data.val orig.args.obsIdCol ⟨0, hrows⟩ ∈
        npSort (npUnique (orig.data.colList orig.args.obsIdCol)) := by
      rw [mem_npSort, mem_npUnique]
      exact List.mem_ofFn.2 ⟨⟨0, hrows⟩, rfl⟩
    rw [h] at hmem
    cases hmem
  rcases hl : jackknifeFrames orig.data orig.args.obsIdCol with _ | ⟨f, fs⟩
  · exact absurd hl hne
  · simp [hd]

/-- C118, the bootstrap: likewise with at least one sample, provided the table of the first sample can be
made; otherwise the dictionary is as it was. -/
theorem bootstrap_changes_kwargs [NatCast V] (k : ℕ) (mnl : MnlArgs V (Kwargs V)) (kw : Kwargs V)
    {d : Kwargs V} (hd : mnl.kwargs = some d) (samples : List (List V)) :
    ∃ d', (generateBootstrapShared env F extract orig k mnl kw samples).2 = some d' ∧
      ((∃ s, samples.head? = some s ∧ ∃ f, createBootstrapDataframe orig.data orig.args.obsIdCol s
          (groupbyDict orig.data orig.args.obsIdCol) "bootstrap_id" = .ok f) → Spec.PointOnly d d') ∧
      ((¬ ∃ s, samples.head? = some s ∧ ∃ f, createBootstrapDataframe orig.data orig.args.obsIdCol s
          (groupbyDict orig.data orig.args.obsIdCol) "bootstrap_id" = .ok f) → d' = d) := by
  unfold generateBootstrapShared
  rw [replicatesShared_snd]
  rcases samples with _ | ⟨s, ss⟩
  · exact ⟨d, hd, by simp, by simp⟩
  · rw [List.map_cons]
    rcases hf : createBootstrapDataframe orig.data orig.args.obsIdCol s
        (groupbyDict orig.data orig.args.obsIdCol) "bootstrap_id" with e | f
    · exact ⟨d, hd, by simp [hf], by simp⟩
    · exact ⟨pointKwargs d, by simp [hd], fun _ => pointKwargs_pointOnly d, by simp [hf]⟩

/-- C118, the part of "the caller's arguments are unchanged" that holds: a caller who passes `None` sees nothing of
this.  For a dictionary the statement is false, by the two theorems above. -/
theorem replicates_leave_none_partial [NatCast V] (k : ℕ) (mnl : MnlArgs V (Kwargs V)) (kw : Kwargs V)
    (hd : mnl.kwargs = none) (samples : List (List V)) :
    (generateBootstrapShared env F extract orig k mnl kw samples).2 = none ∧
    (generateJackknifeShared env F extract orig k mnl kw).2 = none := by
  unfold generateBootstrapShared generateJackknifeShared
  rw [replicatesShared_snd, replicatesShared_snd]
  constructor <;> split <;> simp [hd]

/-- C118: the replicates themselves are not affected.  Every replicate is estimated with the same keyword
arguments, the caller's made into those of a point estimation, so the replicates are those of
`generateJackknifeReplicates` and `generateBootstrapReplicates`, about which C73, C113 and C114 speak. -/
theorem shared_kwargs_replicates [NatCast V] (k : ℕ) (mnl : MnlArgs V (Kwargs V)) (kw : Kwargs V)
    (hkw : "just_point" ∈ kw.map Prod.fst) :
    (generateJackknifeShared env F extract orig k mnl kw).1 =
      generateJackknifeReplicates env (pointOnlyFitter F) extract orig k
        { mnl with kwargs := mnl.kwargs.map pointKwargs } kw ∧
    ∀ samples frames, bootstrapFrames orig.data orig.args.obsIdCol samples = .ok frames →
      (generateBootstrapShared env F extract orig k mnl kw samples).1 =
        generateBootstrapReplicates env (pointOnlyFitter F) extract orig k
          { mnl with kwargs := mnl.kwargs.map pointKwargs } kw samples := by
  refine ⟨replicatesShared_fst _ _ _ hkw _ _, fun samples frames hf => ?_⟩
  unfold generateBootstrapShared generateBootstrapReplicates
  rw [hf]
  have : (samples.map fun s => createBootstrapDataframe orig.data orig.args.obsIdCol s
      (groupbyDict orig.data orig.args.obsIdCol) "bootstrap_id") = frames.map .ok := by
    unfold bootstrapFrames at hf
    clear hkw
    induction samples generalizing frames with
    | nil => cases hf; rfl
    | cons s ss ih =>
      rw [List.mapM_cons] at hf
      simp only [bind, Except.bind] at hf
      split at hf
      · cases hf
      rename_i b hb
      split at hf
      · cases hf
      rename_i bs hbs
      cases hf
      rw [List.map_cons, List.map_cons, hb, ih bs hbs]
  rw [this]
  exact replicatesShared_fst _ _ _ hkw _ _

/-- C118: nor are later replicates.  Generating replicates once more with the dictionary as an earlier
call left it gives what generating them with the original dictionary gives. -/
theorem replicates_again [NatCast V] {env' : Env V} {F' : Fitter V (Kwargs V)} {orig' : ChoiceModel V}
    (k k' : ℕ) (mnl mnl' : MnlArgs V (Kwargs V)) (kw kw' : Kwargs V)
    (hkw : "just_point" ∈ kw.map Prod.fst) (samples : List (List V)) (left : Option (Kwargs V))
    (hleft : left = (generateBootstrapShared env' F' extract orig' k' { mnl' with kwargs := mnl.kwargs }
        kw' samples).2 ∨
      left = (generateJackknifeShared env' F' extract orig' k' { mnl' with kwargs := mnl.kwargs }
        kw').2) :
    (generateJackknifeShared env F extract orig k { mnl with kwargs := left } kw).1 =
      (generateJackknifeShared env F extract orig k mnl kw).1 ∧
    ∀ frames samples, bootstrapFrames orig.data orig.args.obsIdCol samples = .ok frames →
      (generateBootstrapShared env F extract orig k { mnl with kwargs := left } kw samples).1 =
        (generateBootstrapShared env F extract orig k mnl kw samples).1 := by
  have h : left.map pointKwargs = mnl.kwargs.map pointKwargs := by
    rcases hleft with rfl | rfl
    · unfold generateBootstrapShared
      rw [replicatesShared_snd]
      split
      · exact kwargs_twice _
      · rfl
    · unfold generateJackknifeShared
      rw [replicatesShared_snd]
      split
      · exact kwargs_twice _
      · rfl
  have h1 := shared_kwargs_replicates (env := env) (F := F) (extract := extract) (orig := orig) k
    { mnl with kwargs := left } kw hkw
  have h2 := shared_kwargs_replicates (env := env) (F := F) (extract := extract) (orig := orig) k
    mnl kw hkw
  dsimp only at h1
  rw [h] at h1
  exact ⟨h1.1.trans h2.1.symm, fun frames samples hf =>
    (h1.2 samples frames hf).trans (h2.2 samples frames hf).symm⟩

end C118

/-- C118, the consequence: a call `fit_mle(init_vals, **mnl_fit_kwargs)` that stores its results before
the replicates are generated, because the caller's dictionary does not mention `just_point`, stores
nothing afterwards: every result attribute is what it was, and no exception tells. -/
theorem reused_kwargs_store_nothing {env : Env ℝ} {F : Fitter ℝ (Kwargs ℝ)}
    {extract : ChoiceModel ℝ → List (PyVal ℝ) → List ℝ → ℕ → Except Err (List ℝ)}
    {orig : ChoiceModel ℝ} (hrows : 0 < orig.data.numRows) (k : ℕ) (mnl : MnlArgs ℝ (Kwargs ℝ))
    (kw : Kwargs ℝ) {d : Kwargs ℝ} (hd : mnl.kwargs = some d) (hno : kwGet d "just_point" = none)
    (sf : ℝ → ℝ) (s : FitState) (ridge : Option ℝ) (r : FitResults) :
    ∃ d', (generateJackknifeShared env F extract orig k mnl kw).2 = some d' ∧
      fitCall sf ⟨ridge, fitOutcome (justPointOf d) (.ok r)⟩ s =
        (⟨ridge, (storeFitResults sf r s.attrs).1⟩, (storeFitResults sf r s.attrs).2) ∧
      fitCall sf ⟨ridge, fitOutcome (justPointOf d') (.ok r)⟩ s = (⟨ridge, s.attrs⟩, none) := by
  obtain ⟨d', h, hp⟩ := jackknife_changes_kwargs (env := env) (F := F) (extract := extract) hrows k
    mnl kw hd
  refine ⟨d', h, ?_, ?_⟩
  · simp [justPointOf, hno, fitOutcome, fitCall]
  · simp [justPointOf, hp.justPoint, truthy, fitOutcome, fitCall]

/-! ## A run -/

/-- A fitter that returns the number of rows and the number of keyword arguments it sees. -/
def exSharedFitter : Fitter ℤ (Kwargs ℤ) where
  fit := fun m _ kw => .ok [(m.data.numRows + kw.length : ℤ)]
  noKwargs := []

/-- Build the asymmetric model of the examples and run the jackknife with the caller's dictionary
`{"maxiter": 50}`. -/
def exSharedJackknife (kw : Kwargs ℤ) : Except Err (List (List ℤ)) × Option (Kwargs ℤ) :=
  match createChoiceModel exEnv "Asym" exBuildData exBuildArgs with
  | .error e => (.error e, none)
  | .ok m => generateJackknifeShared exEnv exSharedFitter (fun _ _ x _ => .ok x) m 1
      ⟨some [("x", .str "all_same")], none, some [], some kw⟩ [("just_point", .num 1)]

/-- What is left of the dictionary `{"maxiter": 50}`, the replicates, and those of a second call. -/
example : (exSharedJackknife [("maxiter", .num 50)]).2.map (fun d => d.map Prod.fst) =
      some ["maxiter", "just_point", "method"] ∧
    (exSharedJackknife [("maxiter", .num 50)]).1 = .ok [[4], [4]] ∧
    ∀ d, (exSharedJackknife [("maxiter", .num 50)]).2 = some d →
      (exSharedJackknife d).1 = .ok [[4], [4]] := by
  refine ⟨by decide, by decide, ?_⟩
  have h : (exSharedJackknife [("maxiter", .num 50)]).2 =
      some [("maxiter", .num 50), ("just_point", .num 1), ("method", .str "BFGS")] := by rfl
  rintro d hd
  rw [h] at hd
  cases hd
  decide

end Pylogit
