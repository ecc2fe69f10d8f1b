import Mathlib.Tactic
import Verif.Model.BootstrapMle
import Verif.Spec.Bootstrap
import Verif.Props.Construct
import Verif.Props.Sampler
import Verif.Props.Params
import Verif.Props.Transforms

/-!
# C66, C67, C73: parameter lists, starting values and estimation of replicates
-/

set_option linter.unusedSectionVars false

namespace Pylogit

open Spec

/-! ## C66 -/

section C66

variable {W : Type}

private lemma numNames_eq (o : Option (List String)) : numNames o = (o.getD []).length := by
  cases o <;> rfl

private lemma loop_cons (reps pre l post : List W) (ks : List ℕ) (acc : List (Option (List W)))
    (h : reps = pre ++ l ++ post) :
    paramListLoop reps (l.length :: ks) pre.length acc =
      paramListLoop reps ks (pre ++ l).length (orNone l :: acc) := by
  subst h
  simp only [paramListLoop, orNone, List.length_eq_zero_iff]
  split_ifs with h0
  · simp [h0]
  · congr 1
    · simp
    · simp [midSlice, List.append_assoc]

/-- **C66**.  A vector laid out in estimator order is sliced into the list `[index, intercepts, shapes,
nests]`, with `None` exactly for the groups that are empty. -/
theorem param_list_for_prediction (a : NameAttrs) (g : Groups W) (hg : NamedSizes a g) :
    getParamListForPrediction a g.flat =
      [orNone g.index, orNone g.intercepts, orNone g.shapes, orNone g.nests] := by
  unfold getParamListForPrediction
  rw [numNames_eq, numNames_eq, numNames_eq, ← hg.nests, ← hg.shapes, ← hg.intercepts, ← hg.index]
  have h := loop_cons g.flat [] g.nests (g.shapes ++ g.intercepts ++ g.index)
    [g.shapes.length, g.intercepts.length, g.index.length] [] (by simp [Groups.flat])
  simp only [List.length_nil, List.nil_append] at h
  rw [h, loop_cons g.flat g.nests g.shapes (g.intercepts ++ g.index) _ _ (by simp [Groups.flat]),
    loop_cons g.flat (g.nests ++ g.shapes) g.intercepts g.index _ _ (by simp [Groups.flat]),
    loop_cons g.flat (g.nests ++ g.shapes ++ g.intercepts) g.index [] _ _ (by simp [Groups.flat])]
  rfl

private lemma orNone_getD (l : List W) : (orNone l).getD [] = l := by
  unfold orNone; split_ifs with h <;> simp [h]

/-- C66, nothing is lost: for any replicate with one entry per parameter name, the four pieces have one
entry per name of their kind and put together in estimator order they are the replicate. -/
theorem param_list_lossless (a : NameAttrs) (reps : List W)
    (h : reps.length = (getParamNames a).length) :
    ∃ g : Groups W, NamedSizes a g ∧ g.flat = reps ∧
      getParamListForPrediction a reps =
        [orNone g.index, orNone g.intercepts, orNone g.shapes, orNone g.nests] := by
  set n := (a.nestNames.getD []).length with hn
  set s := (a.shapeNames.getD []).length with hs
  set c := (a.interceptNames.getD []).length with hc
  have hlen : reps.length = n + (s + (c + a.indVarNames.length)) := by
    rw [h, hn, hs, hc]
    unfold getParamNames
    cases a.interceptNames <;> cases a.shapeNames <;> cases a.nestNames <;> simp
  let g : Groups W := ⟨reps.take n, (reps.drop n).take s, (reps.drop (n + s)).take c,
    reps.drop (n + s + c)⟩
  have hg : NamedSizes a g :=
    ⟨by simp only [g, List.length_take]; omega, by simp only [g, List.length_take, List.length_drop]; omega,
      by simp only [g, List.length_take, List.length_drop]; omega,
      by simp only [g, List.length_drop]; omega⟩
  have hf : g.flat = reps := by
    simp only [g, Groups.flat]
    rw [List.append_assoc, List.append_assoc]
    have e1 : (reps.drop (n + s)).take c ++ reps.drop (n + s + c) = reps.drop (n + s) := by
      rw [← List.drop_drop (i := c), List.take_append_drop]
    have e2 : (reps.drop n).take s ++ reps.drop (n + s) = reps.drop n := by
      rw [← List.drop_drop (i := s), List.take_append_drop]
    rw [e1, e2, List.take_append_drop]
  refine ⟨g, hg, hf, ?_⟩
  rw [← hf]
  exact param_list_for_prediction a g hg

/-- C66 for the groups the estimators use: the list agrees with the model's own split of the vector. -/
theorem param_list_matches_split (m : ModelType) (d : Dims) (outside : Bool) (a : NameAttrs)
    (x : List W) (hn : 0 < d.numIndex) (hA : 0 < d.numAlts)
    (hx : checkInitLength m d outside x = .ok ())
    (hs : NamedSizes a (groupsOf (splitParamVec m d x))) :
    getParamListForPrediction a x =
      [orNone (splitParamVec m d x).index, orNone ((splitParamVec m d x).intercepts.getD []),
       orNone ((splitParamVec m d x).shapes.getD []), orNone ((splitParamVec m d x).nests.getD [])] := by
  obtain ⟨-, hf⟩ := concat_split m d outside x hn hA hx
  conv_lhs => rw [← hf]
  exact param_list_for_prediction a _ hs

/-- A bootstrap object can be made exactly for a vector with one value per name; the series then gives
the names the values in order. -/
theorem boot_init_iff (a : NameAttrs) (mle : List W) :
    (∃ s, bootInit a mle = .ok s ∧ s.index = getParamNames a ∧ s.values = mle) ↔
      mle.length = (getParamNames a).length := by
  unfold bootInit mkSeries
  by_cases h : mle.length = (getParamNames a).length <;> simp [h]

/-- A gap: with shape parameters for which no names were given, the fitted model labels them by default
names, but the bootstrap object only counts given names, and refuses the model's own estimates. -/
theorem boot_refuses_unnamed_shapes (a : NameAttrs) (hs : a.shapeNames = none)
    (g : Groups W) (hne : g.shapes ≠ []) (hn : g.nests.length = (a.nestNames.getD []).length)
    (hc : g.intercepts.length = (a.interceptNames.getD []).length)
    (hi : g.index.length = a.indVarNames.length) :
    bootInit a g.flat = .error .valueError := by
  have : g.flat.length ≠ (getParamNames a).length := by
    have := List.length_pos_iff.2 hne
    unfold getParamNames Groups.flat
    cases h1 : a.interceptNames <;> cases h2 : a.nestNames <;>
      simp only [h1, h2, hs, Option.getD_some, Option.getD_none, List.length_nil] at * <;>
      simp <;> omega
  simp [bootInit, mkSeries, this]

/-- A nested model has no shapes or outside intercepts. -/
example : getParamListForPrediction
    (⟨["b1", "b2"], none, none, some ["n1", "n2"], none⟩ : NameAttrs) [10, 20, 30, 40] =
    [some [30, 40], none, none, some [10, 20]] := by decide

example : NamedSizes (⟨["b1", "b2"], some ["c"], some ["s1", "s2"], none, none⟩ : NameAttrs)
    (⟨[], [1, 2], [3], [4, 5]⟩ : Groups ℕ) := ⟨rfl, rfl, rfl, rfl⟩

end C66

/-! ## C67 -/

section C67

private lemma filter_eq_of_nodup {W : Type} (l : List String) (v : List W) (hnd : l.Nodup) (i : ℕ)
    (name : String) (x : W) (h1 : l[i]? = some name) (h2 : v[i]? = some x) :
    ((l.zip v).filter fun p => p.1 = name).map Prod.snd = [x] := by
  induction l generalizing v i with
  | nil => simp at h1
  | cons a l ih =>
    cases v with
    | nil => simp at h2
    | cons y v =>
      rw [List.nodup_cons] at hnd
      cases i with
      | zero =>
        simp only [List.getElem?_cons_zero, Option.some.injEq] at h1 h2
        subst h1 h2
        rw [List.zip_cons_cons, List.filter_cons]
        simp only [decide_true, if_true, List.map_cons, List.cons.injEq, true_and, List.map_eq_nil_iff,
          List.filter_eq_nil_iff]
        rintro ⟨b, c⟩ hb
        have := (List.of_mem_zip hb).1
        simp only [decide_eq_true_eq]
        rintro rfl
        exact hnd.1 this
      | succ i =>
        simp only [List.getElem?_cons_succ] at h1 h2
        have hne : a ≠ name := by
          rintro rfl
          exact hnd.1 (List.mem_of_getElem? h1)
        rw [List.zip_cons_cons, List.filter_cons]
        simp only [hne, decide_false, Bool.false_eq_true, if_false]
        exact ih v hnd.2 i h1 h2

private lemma loc_ok (s : Series ℝ) (hnd : s.index.Nodup) (coef : String → ℝ) (names : List String)
    (h : ∀ n ∈ names, ValueAt s n (coef n)) : locSeries s names = .ok (names.map coef) := by
  unfold locSeries
  rw [mapM_ok (g := fun n => [coef n])]
  · simp only [bind, Except.bind]
    congr 1
    clear h
    induction names with
    | nil => rfl
    | cons n l ih => simp_all
  · intro n hn
    obtain ⟨i, h1, h2⟩ := h n hn
    simp [filter_eq_of_nodup s.index s.values hnd i n (coef n) h1 h2]

private lemma assignTail_zeros (zs x : List ℝ) (hz : ∀ z ∈ zs, z = 0) (hx : x ≠ []) :
    assignTail (zs ++ x).length x = .ok (zs ++ x) := by
  have h0 : x.length ≠ 0 := by simpa using hx
  have hz' : zs = List.replicate zs.length 0 := List.eq_replicate_iff.2 ⟨rfl, hz⟩
  unfold assignTail
  simp only [h0, if_false]
  rw [if_pos (by simp)]
  have : (zs ++ x).length - x.length = zs.length := by simp
  rw [this, ← hz']

private lemma assignTail_groups (g : Groups ℝ) (hN : ∀ x ∈ g.nests, x = 0) (hS : ∀ x ∈ g.shapes, x = 0)
    (hne : g.intercepts ++ g.index ≠ []) :
    assignTail g.flat.length (g.intercepts ++ g.index) = .ok g.flat := by
  have e : g.flat = (g.nests ++ g.shapes) ++ (g.intercepts ++ g.index) := by simp [Groups.flat]
  rw [e]
  refine assignTail_zeros _ _ (fun z hz => ?_) hne
  rcases List.mem_append.1 hz with h | h
  · exact hN z h
  · exact hS z h

/-- **C67** for a model with outside intercepts (`intercept_names` given).  `coef` gives the MNL
estimate under each name.  The starting values are zeros for the nests and shapes, the MNL estimate of
each outside intercept, and the MNL estimate of each coefficient, divided by the logarithm of the number
of alternatives for the asymmetric model.  The order of the MNL estimates does not matter. -/
theorem default_init_vals_outside (m : ModelType) (a : NameAttrs) (J : ℕ) (mnl : Series ℝ)
    (hnd : mnl.index.Nodup) (icpts : List String) (hi : a.interceptNames = some icpts)
    (hmix : a.mixingVars = none) (coef : String → ℝ)
    (hcoef : ∀ n ∈ icpts ++ a.indVarNames, ValueAt mnl n (coef n))
    (hne : icpts ++ a.indVarNames ≠ []) (g : Groups ℝ)
    (hN : ∀ x ∈ g.nests, x = 0) (hS : ∀ x ∈ g.shapes, x = 0)
    (hI : g.intercepts = icpts.map coef)
    (hB : g.index = a.indVarNames.map fun n => if m = .asym then coef n / Real.log J else coef n) :
    extractDefaultInitVals m a J mnl g.flat.length = .ok g.flat := by
  unfold extractDefaultInitVals
  have h1 := loc_ok mnl hnd coef a.indVarNames fun n hn => hcoef n (by simp [hn])
  have h2 := loc_ok mnl hnd coef icpts fun n hn => hcoef n (by simp [hn])
  simp only [hi, h1, h2, hmix, bind, Except.bind]
  have hcase : (if m = .asym then (a.indVarNames.map coef).map fun x => x / Real.log J
      else a.indVarNames.map coef) = g.index := by
    rw [hB]; split_ifs <;> simp [Function.comp_def]
  rw [hcase, ← hI]
  refine assignTail_groups g hN hS ?_
  rw [hI, hB]
  intro h0
  apply hne
  rw [← List.length_eq_zero_iff] at h0 ⊢
  simpa using h0

/-- **C67** for a model without outside intercepts, when the MNL model has the model's coefficients in
the same order: zeros for the nests and shapes, the MNL estimates (divided by the logarithm of the number
of alternatives for the asymmetric model), and zeros for the standard deviations. -/
theorem default_init_vals_partial (m : ModelType) (a : NameAttrs) (J : ℕ) (mnl : Series ℝ)
    (hi : a.interceptNames = none) (hmixed : m = .asym → a.mixingVars = none)
    (hlen : mnl.values.length = mnl.index.length) (hnd : mnl.index.Nodup) (coef : String → ℝ)
    (hcoef : ∀ n ∈ mnl.index, ValueAt mnl n (coef n)) (hne : mnl.index ≠ []) (g : Groups ℝ)
    (hN : ∀ x ∈ g.nests, x = 0) (hS : ∀ x ∈ g.shapes, x = 0) (hI : g.intercepts = [])
    (hB : g.index = (mnl.index.map fun n => if m = .asym then coef n / Real.log J else coef n) ++
      List.replicate (a.mixingVars.getD []).length 0) :
    extractDefaultInitVals m a J mnl g.flat.length = .ok g.flat := by
  have hval : mnl.values = mnl.index.map coef := by
    apply List.ext_getElem (by simpa using hlen)
    intro i h1 h2
    rw [List.getElem_map]
    obtain ⟨j, hj1, hj2⟩ := hcoef mnl.index[i] (List.getElem_mem _)
    have hji : j = i := by
      obtain ⟨hj, hj'⟩ := List.getElem?_eq_some_iff.1 hj1
      exact (List.Nodup.getElem_inj_iff hnd).1 hj'
    subst hji
    rw [List.getElem?_eq_getElem h1] at hj2
    exact Option.some.inj hj2
  unfold extractDefaultInitVals
  simp only [hi, bind, Except.bind]
  have fin : assignTail g.flat.length g.index = .ok g.flat := by
    have := assignTail_groups g hN hS (by
      rw [hI, hB]
      intro h0
      apply hne
      rw [← List.length_eq_zero_iff] at h0 ⊢
      simp only [List.nil_append, List.length_append, List.length_map, List.length_replicate] at h0
      omega)
    rwa [hI, List.nil_append] at this
  rw [← fin]
  congr 1
  rw [hB, hval]
  by_cases hm : m = .asym
  · rw [hmixed hm]; simp [hm, Function.comp_def]
  · cases a.mixingVars <;> simp [hm]

/-- What is missing from `default_init_vals_partial`: without outside intercepts the labels of the MNL
estimates are ignored, so an MNL model that lists the same coefficients in another order puts each
estimate in the wrong slot. -/
theorem default_init_vals_misplaced :
    let a : NameAttrs := ⟨["time", "cost"], none, none, some ["n"], none⟩
    let mnl : Series ℝ := ⟨["cost", "time"], [-3, -1]⟩
    ValueAt mnl "cost" (-3) ∧ ValueAt mnl "time" (-1) ∧
      extractDefaultInitVals .nested a 2 mnl 3 = .ok [0, -3, -1] := by
  refine ⟨⟨0, rfl, rfl⟩, ⟨1, rfl, rfl⟩, ?_⟩
  simp [extractDefaultInitVals, bind, Except.bind, assignTail]

/-- With outside intercepts a coefficient the MNL model does not have is an error. -/
theorem default_init_vals_missing (m : ModelType) (a : NameAttrs) (J : ℕ) (mnl : Series ℝ) (k : ℕ)
    (icpts : List String) (hi : a.interceptNames = some icpts)
    (hmiss : ∃ n ∈ icpts ++ a.indVarNames, n ∉ mnl.index) :
    extractDefaultInitVals m a J mnl k = .error .keyError := by
  have key : ∀ names : List String, (∃ n ∈ names, n ∉ mnl.index) →
      locSeries mnl names = .error .keyError := by
    rintro names ⟨n, hn, hn'⟩
    unfold locSeries
    rw [mapM_error (e := .keyError)]
    · rfl
    · intro x _
      simp only
      split_ifs
      · exact .inr rfl
      · exact .inl ⟨_, rfl⟩
    · refine ⟨n, hn, ?_⟩
      simp only
      rw [if_pos]
      rw [List.map_eq_nil_iff, List.filter_eq_nil_iff]
      rintro ⟨b, c⟩ hb
      have := (List.of_mem_zip hb).1
      simp only [decide_eq_true_eq]
      rintro rfl
      exact hn' this
  have dich : ∀ names : List String, (∃ l, locSeries mnl names = .ok l) ∨
      locSeries mnl names = .error .keyError := by
    intro names
    by_cases h : ∃ n ∈ names, n ∉ mnl.index
    · exact .inr (key names h)
    · unfold locSeries
      cases h' : (names.mapM fun n =>
        let hits := ((mnl.index.zip mnl.values).filter fun p => p.1 = n).map Prod.snd
        if hits = [] then (.error .keyError : Except Err (List ℝ)) else .ok hits) with
      | ok l => exact .inl ⟨_, rfl⟩
      | error e =>
        right
        have : e = .keyError := by
          clear h
          induction names generalizing e with
          | nil => cases h'
          | cons n l ih =>
            rw [List.mapM_cons] at h'
            simp only [bind, Except.bind] at h'
            split at h'
            · rename_i heq
              split_ifs at heq
              cases heq; cases h'; rfl
            · split at h'
              · rename_i heq
                cases h'
                exact ih _ heq
              · cases h'
        rw [this]; rfl
  unfold extractDefaultInitVals
  simp only [hi, bind, Except.bind]
  rcases dich a.indVarNames with ⟨l, hl⟩ | hl
  · rw [hl]
    simp only
    obtain ⟨n, hn, hn'⟩ := hmiss
    rcases List.mem_append.1 hn with h | h
    · rw [key icpts ⟨n, h, hn'⟩]
    · rw [key a.indVarNames ⟨n, h, hn'⟩] at hl; cases hl
  · rw [hl]

/-- The hypotheses of the two theorems are met. -/
example : extractDefaultInitVals .asym ⟨["b"], some ["c1", "c2"], some ["s1", "s2"], none, none⟩ 3
    ⟨["b", "c2", "c1"], [6, 5, 4]⟩ 5 = .ok [0, 0, 4, 5, 6 / Real.log (3 : ℕ)] := by
  have := default_init_vals_outside .asym ⟨["b"], some ["c1", "c2"], some ["s1", "s2"], none, none⟩ 3
    ⟨["b", "c2", "c1"], [6, 5, 4]⟩ (by simp) ["c1", "c2"] rfl rfl
    (fun n => if n = "b" then 6 else if n = "c2" then 5 else 4)
    (by
      intro n hn
      simp only [List.mem_append, List.mem_cons, List.not_mem_nil, or_false] at hn
      rcases hn with (rfl | rfl) | rfl
      · exact ⟨2, rfl, by simp⟩
      · exact ⟨1, rfl, by simp⟩
      · exact ⟨0, rfl, by simp⟩)
    (by simp) ⟨[], [0, 0], [4, 5], [6 / Real.log (3 : ℕ)]⟩ (by simp) (by simp) (by simp) (by simp)
  simpa [Groups.flat] using this

example : extractDefaultInitVals .mixed ⟨["b1", "b2"], none, none, none, some ["b2"]⟩ 3
    ⟨["b1", "b2"], [6, 5]⟩ 3 = .ok [6, 5, 0] := by
  have := default_init_vals_partial .mixed ⟨["b1", "b2"], none, none, none, some ["b2"]⟩ 3
    ⟨["b1", "b2"], [6, 5]⟩ rfl (by simp) rfl (by simp) (fun n => if n = "b1" then 6 else 5)
    (by
      intro n hn
      simp only [List.mem_cons, List.not_mem_nil, or_false] at hn
      rcases hn with rfl | rfl
      · exact ⟨0, rfl, by simp⟩
      · exact ⟨1, rfl, by simp⟩)
    (by simp) ⟨[], [], [], [6, 5, 0]⟩ (by simp) (by simp) rfl (by simp)
  simpa [Groups.flat] using this

end C67

/-! ## C67: starting from the MNL probabilities -/

section Start

open Matrix

variable {R K ι O : Type} [Fintype R] [Fintype K] [Fintype O] [DecidableEq O] {n : ℕ}

/-- The utilities of an MNL model that has the outside intercepts as alternative-specific constants: the
design matrix has one dummy column per alternative but the reference, before the other columns. -/
def Spec.mnlDesign (ref : Fin (n + 1)) (alt : R → Fin (n + 1)) (X : Matrix R K ℝ) :
    Matrix R (Fin n ⊕ K) ℝ :=
  Matrix.of fun r => Sum.elim (fun i => if alt r = ref.succAbove i then 1 else 0) (X r)

private lemma mnlDesign_mulVec (ref : Fin (n + 1)) {rta : Matrix R (Fin (n + 1)) ℝ}
    {alt : R → Fin (n + 1)} (hA : Indicates rta alt) (X : Matrix R K ℝ) (α : Fin n → ℝ) (β : K → ℝ)
    (r : R) : (mnlDesign ref alt X *ᵥ Sum.elim α β) r =
      (rta *ᵥ allIntercepts (some ref) (some α)) r + (X *ᵥ β) r := by
  rw [mulVec_indicates hA]
  simp only [Matrix.mulVec, dotProduct, mnlDesign, Matrix.of_apply, Fintype.sum_sum_type, Sum.elim_inl,
    Sum.elim_inr, allIntercepts]
  congr 1
  rcases Fin.eq_self_or_eq_succAbove ref (alt r) with h | ⟨j, h⟩
  · rw [h]
    simp [Ne.symm (Fin.succAbove_ne ref _)]
  · rw [h]
    simp

/-- **C67**, Scobit: at the default starting values (zero shapes, MNL estimates for outside intercepts
and coefficients) all probabilities are those of the estimated MNL model. -/
theorem scobit_starts_at_mnl (ref : Fin (n + 1)) (M : Matrix R O ℝ) {rta : Matrix R (Fin (n + 1)) ℝ}
    {alt : R → Fin (n + 1)} (hA : Indicates rta alt) (X : Matrix R K ℝ) (ids : R → ι) (α : Fin n → ℝ)
    (β : K → ℝ) :
    modelProbs β X ids M rta (scobitTransform (some ref)) (some α) (some fun _ => 0) =
      modelProbs (S := Empty) (I := Empty) (Sum.elim α β) (mnlDesign ref alt X) ids M rta mnlTransform
        none none := by
  unfold modelProbs
  congr 1
  funext r
  rw [mnlTransform, mnlDesign_mulVec ref hA]
  simp [scobitTransform, mulVec_indicates hA, scobit_one]

/-- **C67**, Uneven. -/
theorem uneven_starts_at_mnl (ref : Fin (n + 1)) (M : Matrix R O ℝ) {rta : Matrix R (Fin (n + 1)) ℝ}
    {alt : R → Fin (n + 1)} (hA : Indicates rta alt) (X : Matrix R K ℝ) (ids : R → ι) (α : Fin n → ℝ)
    (β : K → ℝ) :
    modelProbs β X ids M rta (unevenTransform (some ref)) (some α) (some fun _ => 0) =
      modelProbs (S := Empty) (I := Empty) (Sum.elim α β) (mnlDesign ref alt X) ids M rta mnlTransform
        none none := by
  unfold modelProbs
  congr 1
  funext r
  rw [mnlTransform, mnlDesign_mulVec ref hA]
  simp [unevenTransform, mulVec_indicates hA, uneven_one, add_comm]

/-- **C67**, Asymmetric, with the coefficients divided by `log J` (utilities within the clipping
bounds). -/
theorem asym_starts_at_mnl (hn : 0 < n) (sref ref : Fin (n + 1)) {M : Matrix R O ℝ} {f : R → O}
    (hM : Indicates M f) {rta : Matrix R (Fin (n + 1)) ℝ} {alt : R → Fin (n + 1)}
    (hA : Indicates rta alt) (X : Matrix R K ℝ) (ids : R → ι) (α : Fin n → ℝ) (β : K → ℝ)
    (hb : ∀ r, |(mnlDesign ref alt X *ᵥ Sum.elim α β) r| ≤ 700)
    (hb' : ∀ r, |(mnlDesign ref alt X *ᵥ Sum.elim α β) r - Real.log (n + 1 : ℕ)| ≤ 700) :
    modelProbs (fun k => β k / Real.log (n + 1 : ℕ)) X ids M rta (asymTransform sref (some ref))
      (some α) (some fun _ => 0) =
    modelProbs (S := Empty) (I := Empty) (Sum.elim α β) (mnlDesign ref alt X) ids M rta mnlTransform
        none none := by
  have hlog : Real.log ((n + 1 : ℕ) : ℝ) ≠ 0 := by
    apply Real.log_ne_zero_of_pos_of_ne_one <;> push_cast
    · positivity
    · have : (0 : ℝ) < n := by exact_mod_cast hn
      linarith
  have hh : asymTransform sref (some ref) (X *ᵥ fun k => β k / Real.log (n + 1 : ℕ)) ids rta
      (some fun _ => 0) (some α) =
      fun r => (mnlDesign ref alt X *ᵥ Sum.elim α β) r + -Real.log (n + 1 : ℕ) := by
    funext r
    rw [mnlDesign_mulVec ref hA]
    have e : (X *ᵥ fun k => β k / Real.log (n + 1 : ℕ)) r * Real.log (n + 1 : ℕ) = (X *ᵥ β) r := by
      simp only [mulVec, dotProduct, Finset.sum_mul]
      refine Finset.sum_congr rfl fun k _ => ?_
      field_simp
    simp only [asymTransform, mulVec_indicates hA, asym_zero_shape_natural,
      asym_neutral (J := n + 1) (by omega), e]
    ring
  funext r
  simp only [modelProbs, hh, mnlTransform]
  rw [longProbs_eq_logitProb hM r (fun s _ => hb s),
    longProbs_eq_logitProb hM r (fun s _ => by rw [← sub_eq_add_neg]; exact hb' s)]
  simp only [logitProb, Real.exp_add, ← Finset.sum_mul]
  rw [mul_div_mul_right _ _ (Real.exp_pos _).ne']

end Start

/-! ## C73: replicates are estimates of the same model -/

section C73

variable {V κ : Type} [LinearOrder V] [MulZeroOneClass V]

private lemma mapM_ok_inv {α β : Type} {f : α → Except Err β} {l : List α} {r : List β}
    (h : l.mapM f = .ok r) : r.length = l.length ∧
      ∀ k (h1 : k < l.length) (h2 : k < r.length), f l[k] = .ok r[k] := by
  induction l generalizing r with
  | nil =>
    have : r = [] := by cases h; rfl
    subst this
    exact ⟨rfl, fun k hk => absurd hk (by simp)⟩
  | cons a l ih =>
    rw [List.mapM_cons] at h
    simp only [bind, Except.bind] at h
    split at h
    · cases h
    rename_i b hb
    split at h
    · cases h
    rename_i bs hbs
    cases h
    obtain ⟨e1, e2⟩ := ih hbs
    refine ⟨by simp [e1], ?_⟩
    intro k h1 h2
    cases k with
    | zero => exact hb
    | succ k => exact e2 k (by simpa using h1) (by simpa using h2)

theorem mnl_display {env : Env V} {t : String} {df : Frame V} {a : ModelArgs V}
    {m : ChoiceModel V} (hm : createChoiceModel env t df a = .ok m) :
    m.displayName = displayNameOf "MNL" ↔ m.cls = .mnl := by
  obtain ⟨-, h⟩ := factory_type env t df a
  obtain ⟨-, ht, hab, -⟩ := h m hm
  constructor
  · intro hd
    rw [hd] at hab
    have e : getModelAbbrev (displayNameOf "MNL") = .ok "MNL" := by decide
    rw [e] at hab
    have : "MNL" = classOf m.cls := (Except.ok.inj hab).trans ht
    cases hc : m.cls <;> rw [hc] at this <;> revert this <;> decide
  · intro hc
    unfold createChoiceModel at hm
    have hl : modelTypeToClass.lookup t = some m.cls := (lookup_class _ _).2 ht
    simp only [hl] at hm
    obtain ⟨h1, -⟩ := classInit_ok hm
    rw [(baseInit_attrs h1).2.1, hc]
    rfl

/-- Which options a replicate of the model is estimated with: an MNL model uses the MNL options. -/
def Spec.replicateOptions (F : Fitter V κ) (orig : ChoiceModel V) (mnl : MnlArgs V κ) (kw : κ) : κ :=
  if orig.cls = .mnl then mnl.kwargs.getD F.noKwargs else kw

/-- The estimate of one replicate is the result of fitting, on the given table and from some starting
values, a model of the same class with the same settings. -/
theorem point_est_same_model {env : Env V} {F : Fitter V κ}
    {extract : ChoiceModel V → List (PyVal V) → List V → ℕ → Except Err (List V)}
    {t : String} {df0 : Frame V} {a : ModelArgs V} {orig : ChoiceModel V}
    (horig : createChoiceModel env t df0 a = .ok orig) {df : Frame V} {idCol : String} {n : ℕ}
    {mnl : MnlArgs V κ} {kw : κ} {x : List V}
    (h : retrievePointEst env F extract orig df idCol n mnl kw = .ok x) :
    ∃ m' init, recreate env orig idCol df = .ok m' ∧
      m'.cls = orig.cls ∧ m'.args = { orig.args with obsIdCol := idCol } ∧
      m'.data = addIntercept orig.args.specification df ∧
      (orig.cls = .mnl → init = mnl.init.getD (List.replicate n 0)) ∧
      (orig.cls ≠ .mnl → ∃ labels est, extract orig labels est n = .ok init) ∧
      F.fit m' init (replicateOptions F orig mnl kw) = .ok x := by
  have attrs : ∀ m', recreate env orig idCol df = .ok m' →
      m'.cls = orig.cls ∧ m'.args = { orig.args with obsIdCol := idCol } ∧
      m'.data = addIntercept orig.args.specification df := by
    intro m' hm'
    obtain ⟨e1, e2, e3⟩ := recreate_settings horig hm'
    refine ⟨e1, e3, ?_⟩
    unfold recreate at hm'
    simp only [bind, Except.bind] at hm'
    split at hm'
    · cases hm'
    unfold createChoiceModel at hm'
    split at hm'
    · cases hm'
    obtain ⟨h1, -⟩ := classInit_ok hm'
    have := (baseInit_attrs h1).2.2.1
    rw [this, e3]
  unfold retrievePointEst at h
  simp only [bind, Except.bind] at h
  split at h
  · cases h
  rename_i p hp
  obtain ⟨est, obj⟩ := p
  simp only at h
  split_ifs at h with h1 h2
  · -- the MNL case
    cases h
    have hc := (mnl_display horig).1 h2
    unfold getMnlPointEst at hp
    simp only [h2, true_and, if_true] at hp
    have hkw : (if mnl.kwargs.isNone = true then some F.noKwargs else mnl.kwargs) =
        some (mnl.kwargs.getD F.noKwargs) := by
      cases mnl.kwargs <;> rfl
    rw [hkw] at hp
    simp only [bind, Except.bind] at hp
    split at hp
    · cases hp
    rename_i obj' hobj
    split at hp
    · cases hp
    rename_i x0 hx0
    split at hp
    · cases hp
    rename_i est' hest
    cases hp
    have hrec : recreate env orig idCol df = .ok obj := by
      unfold recreate
      rw [h2]
      have e : getModelAbbrev (displayNameOf "MNL") = .ok "MNL" := by decide
      rw [e]
      simp only [bind, Except.bind]
      obtain ⟨-, hf⟩ := factory_type env t df0 a
      obtain ⟨-, ht, -⟩ := hf orig horig
      unfold createChoiceModel at horig
      have hl : modelTypeToClass.lookup t = some orig.cls := (lookup_class _ _).2 ht
      simp only [hl, hc, classInit] at horig
      split_ifs at horig with hr
      push Not at hr
      have ha := (baseInit_attrs horig).2.2.2
      rw [← hobj]
      congr 1
      rw [ha]
      simp [hr]
    obtain ⟨e1, e2, e3⟩ := attrs obj hrec
    refine ⟨obj, x0, hrec, e1, e2, e3, fun _ => ?_, fun hne => absurd hc hne, ?_⟩
    · cases hi : mnl.init <;> simp_all
    rw [replicateOptions, if_pos hc]
    exact hest
  · split at h
    · cases h
    rename_i init hinit
    split at h
    · cases h
    rename_i m' hm'
    obtain ⟨e1, e2, e3⟩ := attrs m' hm'
    refine ⟨m', init, hm', e1, e2, e3, fun hc => absurd ((mnl_display horig).2 hc) h2,
      fun _ => ⟨_, _, hinit⟩, ?_⟩
    rw [replicateOptions, if_neg]
    · exact h
    · intro hc
      exact h2 ((mnl_display horig).2 hc)

/-- **C73**, starting values of an MNL model: those the caller gives, and otherwise one zero per
parameter. -/
theorem point_est_start_mnl {env : Env V} {F : Fitter V κ}
    {extract : ChoiceModel V → List (PyVal V) → List V → ℕ → Except Err (List V)}
    {t : String} {df0 : Frame V} {a : ModelArgs V} {orig : ChoiceModel V}
    (horig : createChoiceModel env t df0 a = .ok orig) (hc : orig.cls = .mnl) {df : Frame V}
    {idCol : String} {n : ℕ} {mnl : MnlArgs V κ} {kw : κ} {x : List V}
    (h : retrievePointEst env F extract orig df idCol n mnl kw = .ok x) :
    ∃ m', recreate env orig idCol df = .ok m' ∧
      F.fit m' (mnl.init.getD (List.replicate n 0)) (mnl.kwargs.getD F.noKwargs) = .ok x := by
  have hd := (mnl_display horig).2 hc
  unfold retrievePointEst at h
  simp only [bind, Except.bind] at h
  split at h
  · cases h
  rename_i p hp
  obtain ⟨est, obj⟩ := p
  simp only [hd, if_true] at h
  split_ifs at h with h1
  cases h
  unfold getMnlPointEst at hp
  simp only [hd, true_and, if_true] at hp
  have hkw : (if mnl.kwargs.isNone = true then some F.noKwargs else mnl.kwargs) =
      some (mnl.kwargs.getD F.noKwargs) := by
    cases mnl.kwargs <;> rfl
  have hin : (if mnl.init = none then some (List.replicate n 0) else mnl.init) =
      some (mnl.init.getD (List.replicate n 0)) := by
    cases mnl.init <;> rfl
  rw [hkw, hin] at hp
  simp only [bind, Except.bind] at hp
  split at hp
  · cases hp
  rename_i obj' hobj
  split at hp
  · cases hp
  rename_i est' hest
  cases hp
  refine ⟨obj, ?_, hest⟩
  unfold recreate
  rw [hd]
  have e : getModelAbbrev (displayNameOf "MNL") = .ok "MNL" := by decide
  rw [e]
  simp only [bind, Except.bind]
  obtain ⟨-, hf⟩ := factory_type env t df0 a
  obtain ⟨-, ht, -⟩ := hf orig horig
  unfold createChoiceModel at horig
  have hl : modelTypeToClass.lookup t = some orig.cls := (lookup_class _ _).2 ht
  simp only [hl, hc, classInit] at horig
  split_ifs at horig with hr
  push Not at hr
  have ha := (baseInit_attrs horig).2.2.2
  rw [← hobj]
  congr 1
  rw [ha]
  simp [hr]

/-- **C73**, starting values of the other models.  An MNL model with the caller's MNL specification,
names, starting values and options is estimated on the same table first.  Its estimates, with their
labels, give the starting values of the replicate (C67 for the default rule), and the replicate is
estimated with the caller's options. -/
theorem point_est_start_other {env : Env V} {F : Fitter V κ}
    {extract : ChoiceModel V → List (PyVal V) → List V → ℕ → Except Err (List V)}
    {t : String} {df0 : Frame V} {a : ModelArgs V} {orig : ChoiceModel V}
    (horig : createChoiceModel env t df0 a = .ok orig) (hc : orig.cls ≠ .mnl) {df : Frame V}
    {idCol : String} {n : ℕ} {mnl : MnlArgs V κ} {kw : κ} {x : List V}
    (h : retrievePointEst env F extract orig df idCol n mnl kw = .ok x) :
    ∃ spec x0 kw0 base est init m',
      mnl.spec = some spec ∧ mnl.init = some x0 ∧ mnl.kwargs = some kw0 ∧
      createChoiceModel env "MNL" df
        { altIdCol := orig.args.altIdCol, obsIdCol := idCol, choiceCol := orig.args.choiceCol,
          specification := spec, names := mnl.names, interceptRefPos := .none, shapeRefPos := .none,
          interceptNames := none, shapeNames := none, nestSpec := none, mixingIdCol := none,
          mixingVars := none } = .ok base ∧
      F.fit base x0 kw0 = .ok est ∧ est.length = base.indVarNames.length ∧
      extract orig base.indVarNames est n = .ok init ∧
      recreate env orig idCol df = .ok m' ∧ F.fit m' init kw = .ok x := by
  have hd : ¬ orig.displayName = displayNameOf "MNL" := fun h => hc ((mnl_display horig).1 h)
  unfold retrievePointEst at h
  simp only [bind, Except.bind] at h
  split at h
  · cases h
  rename_i p hp
  obtain ⟨est, obj⟩ := p
  simp only [hd, if_false] at h
  split_ifs at h with h1
  unfold getMnlPointEst at hp
  simp only [hd, false_and, if_false] at hp
  cases hk : mnl.kwargs with
  | none => simp [hk] at hp
  | some kw0 =>
  cases hs : mnl.spec with
  | none => simp [hk, hs] at hp
  | some spec =>
  simp only [hk, hs, bind, Except.bind] at hp
  split at hp
  · cases hp
  rename_i base hbase
  cases hi : mnl.init with
  | none => simp [hi] at hp
  | some x0 =>
  simp only [hi] at hp
  split at hp
  · cases hp
  rename_i est' hest
  cases hp
  split at h
  · cases h
  rename_i init hinit
  split at h
  · cases h
  rename_i m' hm'
  exact ⟨spec, x0, kw0, obj, est, init, m', rfl, rfl, rfl, hbase, hest, not_not.1 h1, hinit, hm', h⟩

theorem assignRow_exact {n : ℕ} {x r : List V} (h : assignRow n x = .ok r)
    (hx : x.length = n) : r = x := by
  simp only [assignRow, hx, if_true] at h
  exact (Except.ok.inj h).symm

/-- One jackknife replicate per observation: the estimate on the table without it, as a row of the array. -/
theorem jackknife_runs {env : Env V} {F : Fitter V κ}
    {extract : ChoiceModel V → List (PyVal V) → List V → ℕ → Except Err (List V)}
    {t : String} {df0 : Frame V} {a : ModelArgs V} {orig : ChoiceModel V}
    (horig : createChoiceModel env t df0 a = .ok orig) {n : ℕ}
    {mnl : MnlArgs V κ} {kw : κ} {reps : List (List V)}
    (h : generateJackknifeReplicates env F extract orig n mnl kw = .ok reps) :
    ∃ ids : List V, ids.Pairwise (· < ·) ∧
      (∀ o, o ∈ ids ↔ ∃ r, orig.data.val orig.args.obsIdCol r = o) ∧
      reps.length = ids.length ∧
      ∀ k (hk : k < ids.length) (hk' : k < reps.length), ∃ df m' init x,
        df.columns = orig.data.columns ∧ df.rows = otherRows orig.data orig.args.obsIdCol ids[k] ∧
        recreate env orig orig.args.obsIdCol df = .ok m' ∧
        m'.cls = orig.cls ∧ m'.args = orig.args ∧ m'.data = addIntercept orig.args.specification df ∧
        (orig.cls = .mnl → init = mnl.init.getD (List.replicate n 0)) ∧
        (orig.cls ≠ .mnl → ∃ labels est, extract orig labels est n = .ok init) ∧
        F.fit m' init (replicateOptions F orig mnl kw) = .ok x ∧ assignRow n x = .ok reps[k] := by
  obtain ⟨ids, h1, h2, h3, h4⟩ := jackknife_frames orig.data orig.args.obsIdCol
  unfold generateJackknifeReplicates replicatesOn at h
  obtain ⟨e1, e2⟩ := mapM_ok_inv h
  refine ⟨ids, h1, h2, e1.trans h3, ?_⟩
  intro k hk hk'
  have hk2 : k < (jackknifeFrames orig.data orig.args.obsIdCol).length := by rw [h3]; exact hk
  have := e2 k hk2 hk'
  simp only [bind, Except.bind] at this
  split at this
  · cases this
  rename_i x hx
  obtain ⟨m', init, f1, f2, f3, f4, f0, f6, f5⟩ := point_est_same_model horig hx
  exact ⟨_, m', init, x, (h4 k hk hk2).1, (h4 k hk hk2).2, f1, f2, f3, f4, f0, f6, f5, this⟩

/-- **C73**, jackknife.  There is one replicate per observation, in ascending order of the observation
ids; each is the estimate of a model of the same class and settings on the table without that
observation. -/
theorem jackknife_replicates {env : Env V} {F : Fitter V κ}
    {extract : ChoiceModel V → List (PyVal V) → List V → ℕ → Except Err (List V)}
    {t : String} {df0 : Frame V} {a : ModelArgs V} {orig : ChoiceModel V}
    (horig : createChoiceModel env t df0 a = .ok orig) {n : ℕ}
    {mnl : MnlArgs V κ} {kw : κ} {reps : List (List V)}
    (hfit : ∀ m init kw x, F.fit m init kw = .ok x → x.length = n)
    (h : generateJackknifeReplicates env F extract orig n mnl kw = .ok reps) :
    ∃ ids : List V, ids.Pairwise (· < ·) ∧
      (∀ o, o ∈ ids ↔ ∃ r, orig.data.val orig.args.obsIdCol r = o) ∧
      reps.length = ids.length ∧
      ∀ k (hk : k < ids.length) (hk' : k < reps.length), ∃ df m' init,
        df.columns = orig.data.columns ∧ df.rows = otherRows orig.data orig.args.obsIdCol ids[k] ∧
        recreate env orig orig.args.obsIdCol df = .ok m' ∧
        m'.cls = orig.cls ∧ m'.args = orig.args ∧
        F.fit m' init (replicateOptions F orig mnl kw) = .ok reps[k] := by
  obtain ⟨ids, h1, h2, h3, h4⟩ := jackknife_runs horig h
  refine ⟨ids, h1, h2, h3, fun k hk hk' => ?_⟩
  obtain ⟨df, m', init, x, f1, f2, f3, f4, f5, -, -, -, f6, f7⟩ := h4 k hk hk'
  refine ⟨df, m', init, f1, f2, f3, f4, f5, ?_⟩
  rw [assignRow_exact f7 (hfit _ _ _ _ f6)]
  exact f6

/-- One bootstrap replicate per sample: the estimate on the resampled table, as a row of the array. -/
theorem bootstrap_runs {V : Type} [Field V] [LinearOrder V] [IsStrictOrderedRing V]
    {env : Env V} {F : Fitter V κ}
    {extract : ChoiceModel V → List (PyVal V) → List V → ℕ → Except Err (List V)}
    {t : String} {df0 : Frame V} {a : ModelArgs V} {orig : ChoiceModel V}
    (horig : createChoiceModel env t df0 a = .ok orig) {n : ℕ}
    {mnl : MnlArgs V κ} {kw : κ} {samples reps : List (List V)}
    (hs : ∀ s ∈ samples, s ≠ [] ∧ ∀ o ∈ s, ∃ r, orig.data.val orig.args.obsIdCol r = o)
    (hcol : orig.args.obsIdCol ∈ orig.data.columns) (hboot : "bootstrap_id" ∉ orig.data.columns)
    (h : generateBootstrapReplicates env F extract orig n mnl kw samples = .ok reps) :
    reps.length = samples.length ∧
      ∀ i (hi : i < samples.length) (hi' : i < reps.length), ∃ df m' init x,
        df.columns = orig.data.columns ++ ["bootstrap_id"] ∧
        (∀ k (hk : k < samples[i].length), obsRows df "bootstrap_id" ((k + 1 : ℕ) : V) =
          (obsRows orig.data orig.args.obsIdCol samples[i][k]).map
            fun row c => if c = "bootstrap_id" then ((k + 1 : ℕ) : V) else row c) ∧
        (∀ r, ∃ k, k < samples[i].length ∧ df.val "bootstrap_id" r = ((k + 1 : ℕ) : V)) ∧
        recreate env orig "bootstrap_id" df = .ok m' ∧
        m'.cls = orig.cls ∧ m'.args = { orig.args with obsIdCol := "bootstrap_id" } ∧
        m'.data = addIntercept orig.args.specification df ∧
        (orig.cls = .mnl → init = mnl.init.getD (List.replicate n 0)) ∧
        (orig.cls ≠ .mnl → ∃ labels est, extract orig labels est n = .ok init) ∧
        F.fit m' init (replicateOptions F orig mnl kw) = .ok x ∧ assignRow n x = .ok reps[i] := by
  unfold generateBootstrapReplicates at h
  simp only [bind, Except.bind] at h
  split at h
  · cases h
  rename_i frames hframes
  unfold bootstrapFrames at hframes
  obtain ⟨a1, a2⟩ := mapM_ok_inv hframes
  unfold replicatesOn at h
  obtain ⟨e1, e2⟩ := mapM_ok_inv h
  refine ⟨e1.trans a1, ?_⟩
  intro i hi hi'
  have hif : i < frames.length := by rw [a1]; exact hi
  obtain ⟨hne, hin⟩ := hs samples[i] (List.getElem_mem _)
  obtain ⟨out, o1, o2, o3, o4, -, -⟩ :=
    bootstrap_dataframe orig.data orig.args.obsIdCol "bootstrap_id" hcol hboot samples[i] hne hin
  have hout : frames[i] = out := by
    have := a2 i hi hif
    rw [o1] at this
    exact (Except.ok.inj this).symm
  have := e2 i hif hi'
  simp only [bind, Except.bind] at this
  split at this
  · cases this
  rename_i x hx
  obtain ⟨m', init, f1, f2, f3, f4, f0, f6, f5⟩ := point_est_same_model horig hx
  rw [hout] at f1 f4
  exact ⟨out, m', init, x, o2, o4, o3, f1, f2, f3, f4, f0, f6, f5, this⟩

/-- **C73**, bootstrap.  There is one replicate per sample, in order; each is the estimate of a model of
the same class and settings, with the bootstrap id as observation id, on a table in which the rows with
bootstrap id `k + 1` are the rows of the `k`-th sampled observation. -/
theorem bootstrap_replicates {V : Type} [Field V] [LinearOrder V] [IsStrictOrderedRing V]
    {env : Env V} {F : Fitter V κ}
    {extract : ChoiceModel V → List (PyVal V) → List V → ℕ → Except Err (List V)}
    {t : String} {df0 : Frame V} {a : ModelArgs V} {orig : ChoiceModel V}
    (horig : createChoiceModel env t df0 a = .ok orig) {n : ℕ}
    {mnl : MnlArgs V κ} {kw : κ} {samples reps : List (List V)}
    (hfit : ∀ m init kw x, F.fit m init kw = .ok x → x.length = n)
    (hs : ∀ s ∈ samples, s ≠ [] ∧ ∀ o ∈ s, ∃ r, orig.data.val orig.args.obsIdCol r = o)
    (hcol : orig.args.obsIdCol ∈ orig.data.columns) (hboot : "bootstrap_id" ∉ orig.data.columns)
    (h : generateBootstrapReplicates env F extract orig n mnl kw samples = .ok reps) :
    reps.length = samples.length ∧
      ∀ i (hi : i < samples.length) (hi' : i < reps.length), ∃ df m' init,
        df.columns = orig.data.columns ++ ["bootstrap_id"] ∧
        (∀ k (hk : k < samples[i].length), obsRows df "bootstrap_id" ((k + 1 : ℕ) : V) =
          (obsRows orig.data orig.args.obsIdCol samples[i][k]).map
            fun row c => if c = "bootstrap_id" then ((k + 1 : ℕ) : V) else row c) ∧
        (∀ r, ∃ k, k < samples[i].length ∧ df.val "bootstrap_id" r = ((k + 1 : ℕ) : V)) ∧
        recreate env orig "bootstrap_id" df = .ok m' ∧
        m'.cls = orig.cls ∧ m'.args = { orig.args with obsIdCol := "bootstrap_id" } ∧
        F.fit m' init (replicateOptions F orig mnl kw) = .ok reps[i] := by
  obtain ⟨h1, h2⟩ := bootstrap_runs horig hs hcol hboot h
  refine ⟨h1, fun i hi hi' => ?_⟩
  obtain ⟨df, m', init, x, f1, f2, f3, f4, f5, f6, -, -, -, f7, f8⟩ := h2 i hi hi'
  refine ⟨df, m', init, f1, f2, f3, f4, f5, f6, ?_⟩
  rw [assignRow_exact f8 (hfit _ _ _ _ f7)]
  exact f7

/-- A gap in C73: for an MNL model the options of `generate_bootstrap_replicates` and
`generate_jackknife_replicates` (`method`, `ridge`, `constrained_pos`, tolerances) are ignored. -/
theorem mnl_replicates_ignore_options {env : Env V} {F : Fitter V κ}
    {extract : ChoiceModel V → List (PyVal V) → List V → ℕ → Except Err (List V)}
    {t : String} {df0 : Frame V} {a : ModelArgs V} {orig : ChoiceModel V}
    (horig : createChoiceModel env t df0 a = .ok orig) (hc : orig.cls = .mnl) (n : ℕ)
    (mnl : MnlArgs V κ) (kw kw' : κ) :
    generateJackknifeReplicates env F extract orig n mnl kw =
        generateJackknifeReplicates env F extract orig n mnl kw' ∧
    ∀ [NatCast V] (samples : List (List V)),
      generateBootstrapReplicates env F extract orig n mnl kw samples =
        generateBootstrapReplicates env F extract orig n mnl kw' samples := by
  have key : ∀ df idCol, retrievePointEst env F extract orig df idCol n mnl kw =
      retrievePointEst env F extract orig df idCol n mnl kw' := by
    intro df idCol
    unfold retrievePointEst
    simp only [(mnl_display horig).2 hc, if_true]
  refine ⟨?_, ?_⟩
  · unfold generateJackknifeReplicates replicatesOn
    simp only [key]
  · intro _ samples
    unfold generateBootstrapReplicates replicatesOn
    simp only [key]

/-- A gap in C73: replicates of a mixed logit model can never be generated.  The keyword arguments the
replicate functions pass on do not contain `num_draws`, which the estimation of a mixed logit model
requires. -/
theorem mixed_replicates_fail {env : Env V} {F : Fitter V (List (String × PyVal V))}
    {extract : ChoiceModel V → List (PyVal V) → List V → ℕ → Except Err (List V)}
    {t : String} {df0 : Frame V} {a : ModelArgs V} {orig : ChoiceModel V}
    (horig : createChoiceModel env t df0 a = .ok orig) (hc : orig.cls = .mixed) (n : ℕ)
    (mnl : MnlArgs V (List (String × PyVal V))) (v1 v2 v3 v4 v5 v6 v7 v8 : PyVal V) :
    (0 < orig.data.numRows → ∃ e, generateJackknifeReplicates env (bindSignature F) extract orig n mnl
        (replicateFitKwargs v1 v2 v3 v4 v5 v6 v7 v8) = .error e) ∧
    ∀ [NatCast V] (samples : List (List V)), samples ≠ [] →
      ∃ e, generateBootstrapReplicates env (bindSignature F) extract orig n mnl
        (replicateFitKwargs v1 v2 v3 v4 v5 v6 v7 v8) samples = .error e := by
  have key : ∀ df idCol x, retrievePointEst env (bindSignature F) extract orig df idCol n mnl
      (replicateFitKwargs v1 v2 v3 v4 v5 v6 v7 v8) ≠ .ok x := by
    intro df idCol x hx
    obtain ⟨m', init, -, f2, -, -, -, -, f5⟩ := point_est_same_model horig hx
    rw [replicateOptions, if_neg (by rw [hc]; decide)] at f5
    simp only [bindSignature, f2, hc, replicateFitKwargs] at f5
    simp at f5
  have hreps : ∀ idCol frames, frames ≠ [] → ∃ e, replicatesOn env (bindSignature F) extract orig
      idCol n mnl (replicateFitKwargs v1 v2 v3 v4 v5 v6 v7 v8) frames = .error e := by
    intro idCol frames hne
    cases h : replicatesOn env (bindSignature F) extract orig
      idCol n mnl (replicateFitKwargs v1 v2 v3 v4 v5 v6 v7 v8) frames with
    | error e => exact ⟨e, rfl⟩
    | ok reps =>
      exfalso
      unfold replicatesOn at h
      obtain ⟨e1, e2⟩ := mapM_ok_inv h
      have h0 : 0 < frames.length := List.length_pos_iff.2 hne
      have := e2 0 h0 (by rw [e1]; exact h0)
      simp only [bind, Except.bind] at this
      split at this
      · cases this
      · rename_i x hx
        exact key _ _ _ hx
  refine ⟨fun hrow => hreps _ _ ?_, ?_⟩
  · obtain ⟨ids, -, h2, h3, -⟩ := jackknife_frames orig.data orig.args.obsIdCol
    intro hnil
    rw [hnil, List.length_nil] at h3
    have : orig.data.val orig.args.obsIdCol ⟨0, hrow⟩ ∈ ids := (h2 _).2 ⟨_, rfl⟩
    rw [List.eq_nil_of_length_eq_zero h3.symm] at this
    cases this
  · intro _ samples hne
    unfold generateBootstrapReplicates
    cases hfr : bootstrapFrames orig.data orig.args.obsIdCol samples with
    | error e => exact ⟨e, rfl⟩
    | ok frames =>
      refine hreps _ _ fun hnil => hne ?_
      unfold bootstrapFrames at hfr
      obtain ⟨a1, -⟩ := mapM_ok_inv hfr
      rw [hnil] at a1
      exact List.eq_nil_of_length_eq_zero a1.symm

/-- A model without `mnl_fit_kwargs` other than an MNL cannot be replicated: a `TypeError`. -/
theorem replicate_needs_mnl_kwargs {env : Env V} {F : Fitter V κ}
    {extract : ChoiceModel V → List (PyVal V) → List V → ℕ → Except Err (List V)}
    {t : String} {df0 : Frame V} {a : ModelArgs V} {orig : ChoiceModel V}
    (horig : createChoiceModel env t df0 a = .ok orig) (hc : orig.cls ≠ .mnl) (df : Frame V)
    (idCol : String) (n : ℕ) (mnl : MnlArgs V κ) (hk : mnl.kwargs = none) (kw : κ) :
    retrievePointEst env F extract orig df idCol n mnl kw = .error .typeError := by
  have : orig.displayName ≠ displayNameOf "MNL" := fun h => hc ((mnl_display horig).1 h)
  unfold retrievePointEst getMnlPointEst
  simp [this, hk, bind, Except.bind]

/-- The hypotheses are met: the jackknife of the asymmetric example model with a fitter that returns the
number of rows it sees. -/
def exFitter : Fitter ℤ Unit where
  fit := fun m _ _ => .ok [(m.data.numRows : ℤ)]
  noKwargs := ()

/-- Build a model and run the jackknife. -/
def exJackknife (t : String) (args : ModelArgs ℤ) (mnl : MnlArgs ℤ Unit) : Except Err (List (List ℤ)) :=
  match createChoiceModel exEnv t exBuildData args with
  | .error e => .error e
  | .ok m => generateJackknifeReplicates exEnv exFitter (fun _ _ _ _ => .ok []) m 1 mnl ()

/-- Two observations, so two replicates, each on the three rows of the other observation; once for an MNL
and once for an asymmetric model with outside intercepts. -/
example : exJackknife "MNL" { exBuildArgs with interceptRefPos := .none } ⟨none, none, none, none⟩ =
      .ok [[3], [3]] ∧
    exJackknife "Asym" exBuildArgs ⟨some [("x", .str "all_same")], none, some [], some ()⟩ =
      .ok [[3], [3]] := by
  decide

/-- Build a model and run the bootstrap on two samples of observation ids. -/
def exBootstrap (t : String) (args : ModelArgs ℤ) (mnl : MnlArgs ℤ Unit) : Except Err (List (List ℤ)) :=
  match createChoiceModel exEnv t exBuildData args with
  | .error e => .error e
  | .ok m => generateBootstrapReplicates exEnv exFitter (fun _ _ _ _ => .ok []) m 1 mnl ()
      [[1, 1], [2, 1, 2]]

example : exBootstrap "Scobit" { exBuildArgs with shapeNames := some ["s1", "s2", "s3"] }
    ⟨some [("x", .str "all_same")], none, some [], some ()⟩ = .ok [[6], [9]] := by
  decide

end C73

end Pylogit
