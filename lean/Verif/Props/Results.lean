import Mathlib.Tactic
import Verif.Props.Params
import Verif.Spec.Results

/-!
# Reported parameters and their names (C50)
-/

namespace Pylogit

open Spec

variable {V : Type}

private lemma mkSeries_ok {v : List V} {names : List String} {s : Series V} :
    mkSeries v names = .ok s ↔ v.length = names.length ∧ s = ⟨names, v⟩ := by
  unfold mkSeries
  split_ifs with h
  · simp [h]
  · simp only [ne_eq, not_not] at h
    simp [h, eq_comm]

private lemma optionalNames_labels (p : List V) (given : Option (List String)) (pre : String)
    (h : p.length = (optionalNames given pre p.length).length) :
    Labels (some p) given pre (optionalNames given pre p.length) := by
  refine ⟨by simpa using h.symm, ?_, ?_⟩
  · rintro _ g rfl; rfl
  · rintro rfl i hi
    simp [optionalNames]

private lemma storeOptional_ok {p : Option (List V)} {given : Option (List String)} {pre : String}
    {names : List String} {params : List (List V)} {r : Option (Series V) × List String × List (List V)}
    (h : storeOptional p given pre names params = .ok r) :
    ∃ L, Labels p given pre L ∧ r.2.1 = L ++ names ∧ r.2.2.flatten = p.getD [] ++ params.flatten ∧
      r.1 = p.map fun v => ⟨L, v⟩ := by
  cases p with
  | none =>
    simp only [storeOptional, Except.ok.injEq] at h
    subst h
    exact ⟨[], ⟨rfl, by simp, by simp⟩, by simp, by simp, rfl⟩
  | some p =>
    simp only [storeOptional, bind, Except.bind] at h
    cases hs : mkSeries p (optionalNames given pre p.length) with
    | error e => simp [hs] at h
    | ok s =>
      obtain ⟨h1, h2⟩ := mkSeries_ok.mp hs
      simp only [hs, pure, Except.pure, Except.ok.injEq] at h
      subst h h2
      exact ⟨_, optionalNames_labels p given pre h1, rfl, by simp, rfl⟩

private lemma addMixing_attrs (attrs : NameAttrs) :
    (addMixingNames attrs).interceptNames = attrs.interceptNames ∧
      (addMixingNames attrs).shapeNames = attrs.shapeNames ∧
      (addMixingNames attrs).nestNames = attrs.nestNames := by
  unfold addMixingNames
  cases attrs.mixingVars <;> simp
  split_ifs <;> simp

/-- C50.  Whenever results are stored, the series of all parameters lists the nest, shape,
intercept and index parameters in this order, each under its own label: the labels the user
supplied, default labels numbered from 1, and the design column names for the index coefficients.
The separate series of each kind carry the same values and labels. -/
theorem stored_params (attrs : NameAttrs) (s : SplitParams V) (r : StoredParams V)
    (h : storeParams attrs s = .ok r) :
    ∃ Ln Ls Li, Labels s.nests attrs.nestNames "Nest_Param_" Ln ∧
      Labels s.shapes attrs.shapeNames "Shape_" Ls ∧
      Labels s.intercepts attrs.interceptNames "Outside_ASC_" Li ∧
      r.params.values = (groupsOf s).flat ∧
      r.params.index = Ln ++ Ls ++ Li ++ r.attrs.indVarNames ∧
      r.attrs = addMixingNames attrs ∧ r.attrs.indVarNames.length = s.index.length ∧
      r.nests = s.nests.map (fun v => ⟨Ln, v⟩) ∧ r.shapes = s.shapes.map (fun v => ⟨Ls, v⟩) ∧
      r.intercepts = s.intercepts.map (fun v => ⟨Li, v⟩) ∧
      r.coefs = ⟨r.attrs.indVarNames, s.index⟩ := by
  obtain ⟨b, hb⟩ : ∃ b, addMixingNames attrs = b := ⟨_, rfl⟩
  obtain ⟨hi, hs, hn⟩ := addMixing_attrs attrs
  rw [hb] at hi hs hn ⊢
  simp only [storeParams, hb, bind, Except.bind] at h
  cases h1 : storeOptional s.intercepts b.interceptNames "Outside_ASC_" b.indVarNames [s.index] with
  | error e => simp [h1] at h
  | ok r1 =>
    obtain ⟨icpt, names1, params1⟩ := r1
    simp only [h1] at h
    cases h2 : storeOptional s.shapes b.shapeNames "Shape_" names1 params1 with
    | error e => simp [h2] at h
    | ok r2 =>
      obtain ⟨shp, names2, params2⟩ := r2
      simp only [h2] at h
      cases h3 : storeOptional s.nests b.nestNames "Nest_Param_" names2 params2 with
      | error e => simp [h3] at h
      | ok r3 =>
        obtain ⟨nst, names3, params3⟩ := r3
        simp only [h3] at h
        cases h4 : mkSeries s.index b.indVarNames with
        | error e => simp [h4] at h
        | ok coefs =>
          simp only [h4] at h
          cases h5 : mkSeries params3.flatten names3 with
          | error e => simp [h5] at h
          | ok params =>
            simp only [h5, pure, Except.pure, Except.ok.injEq] at h
            obtain ⟨Li, hLi, a1, a2, a3⟩ := storeOptional_ok h1
            obtain ⟨Ls, hLs, b1, b2, b3⟩ := storeOptional_ok h2
            obtain ⟨Ln, hLn, c1, c2, c3⟩ := storeOptional_ok h3
            obtain ⟨d1, d2⟩ := mkSeries_ok.mp h4
            obtain ⟨e1, e2⟩ := mkSeries_ok.mp h5
            simp only at a1 a2 a3 b1 b2 b3 c1 c2 c3
            rw [hi] at hLi; rw [hs] at hLs; rw [hn] at hLn
            subst h
            refine ⟨Ln, Ls, Li, hLn, hLs, hLi, ?_, ?_, rfl, d1.symm, c3, b3, a3, d2⟩
            · simp [e2, c2, b2, a2, groupsOf, Groups.flat]
            · simp [e2, c1, b1, a1]

/-- The names of the index coefficients after storing: the design column names, followed for a
model with mixing variables by one `Sigma` name per mixing variable, in order. -/
theorem index_names (attrs : NameAttrs) :
    (attrs.mixingVars = none → (addMixingNames attrs).indVarNames = attrs.indVarNames) ∧
    (∀ mv, attrs.mixingVars = some mv → NoSigma attrs.indVarNames →
      (addMixingNames attrs).indVarNames = attrs.indVarNames ++ mv.map fun x => "Sigma " ++ x) := by
  constructor
  · intro h; simp [addMixingNames, h]
  · intro mv h hs
    have : (attrs.indVarNames.any fun x => strIn "Sigma " x) = false := by
      rw [List.any_eq_false]
      intro x hx
      simpa [strIn] using hs x hx
    simp only [addMixingNames, h, this]
    rfl

private lemma sigma_infix (x : String) : "Sigma ".toList <:+: ("Sigma " ++ x).toList := by
  rw [String.toList_append]
  exact (List.prefix_append _ _).isInfix

/-- Estimating again does not add the names a second time. -/
theorem addMixingNames_idempotent (attrs : NameAttrs) :
    addMixingNames (addMixingNames attrs) = addMixingNames attrs := by
  obtain ⟨ind, icpt, shp, nst, mv⟩ := attrs
  cases mv with
  | none => rfl
  | some mv =>
    by_cases h : (ind.any fun x => strIn "Sigma " x) = true
    · have : addMixingNames ⟨ind, icpt, shp, nst, some mv⟩ = ⟨ind, icpt, shp, nst, some mv⟩ := by
        simp [addMixingNames, h]
      rw [this, this]
    · have e : addMixingNames ⟨ind, icpt, shp, nst, some mv⟩
          = ⟨ind ++ mv.map fun x => "Sigma " ++ x, icpt, shp, nst, some mv⟩ := by
        simp only [addMixingNames, h]; rfl
      rw [e]
      cases mv with
      | nil => simp only [List.map_nil, List.append_nil] at e ⊢; exact e
      | cons y ys =>
        have : ((ind ++ (y :: ys).map fun x => "Sigma " ++ x).any fun x => strIn "Sigma " x) = true := by
          rw [List.any_eq_true]
          exact ⟨"Sigma " ++ y, by simp, by simpa [strIn] using sigma_infix y⟩
        simp only [addMixingNames, this, if_true]

/-- The names attributes fit the sizes of the model: one name per design column, one name per
optional parameter when names were supplied, mixing variables only for the mixed model. -/
structure NamesFit (m : ModelType) (d : Dims) (attrs : NameAttrs) : Prop where
  index : attrs.indVarNames.length = d.numIndex
  nests : ∀ g, attrs.nestNames = some g → m = .nested ∧ g.length = d.numNests
  shapes : ∀ g, attrs.shapeNames = some g → g.length = shapeCount m d.numAlts
  intercepts : ∀ g, attrs.interceptNames = some g → g.length = interceptCount m d.numAlts true
  mixing : ∀ mv, attrs.mixingVars = some mv →
    m = .mixed ∧ mv.length = d.numMixing ∧ NoSigma attrs.indVarNames
  mixed : m = .mixed → attrs.mixingVars.isSome

private lemma storeOptional_some {p : List V} {given : Option (List String)} {pre : String}
    {names : List String} {params : List (List V)} (h : ∀ g, given = some g → g.length = p.length) :
    ∃ L, L.length = p.length ∧
      storeOptional (some p) given pre names params
        = .ok (some ⟨L, p⟩, L ++ names, p :: params) := by
  refine ⟨optionalNames given pre p.length, ?_, ?_⟩
  · cases given with
    | none => simp [optionalNames]
    | some g => exact h g rfl
  · have : p.length = (optionalNames given pre p.length).length := by
      cases given with
      | none => simp [optionalNames]
      | some g => exact (h g rfl).symm
    simp [storeOptional, bind, Except.bind, mkSeries, ← this, pure, Except.pure]

/-- C50 for a whole fit: a parameter vector that passes the length check is always stored, and the
values of the reported series are exactly that vector, in estimator order. -/
theorem fit_stored (m : ModelType) (d : Dims) (outside : Bool) (attrs : NameAttrs) (x : List V)
    (hn : 0 < d.numIndex) (hA : 0 < d.numAlts) (hx : checkInitLength m d outside x = .ok ())
    (hf : NamesFit m d attrs) :
    ∃ r, storeParams attrs (splitParamVec m d x) = .ok r ∧ r.params.values = x := by
  obtain ⟨g, hg, rfl⟩ := exists_groups_of_check m d outside x hA hx
  obtain ⟨h1, ⟨h2, h2'⟩, h3, h4⟩ := split_concat m d outside g hg hn
  obtain ⟨_, hflat⟩ := concat_split m d outside g.flat hn hA hx
  suffices H : ∃ r, storeParams attrs (splitParamVec m d g.flat) = .ok r by
    obtain ⟨r, hr⟩ := H
    obtain ⟨_, _, _, _, _, _, hv, _⟩ := stored_params _ _ _ hr
    exact ⟨r, hr, by rw [hv, hflat]⟩
  generalize splitParamVec m d g.flat = s at *
  have hlen : (addMixingNames attrs).indVarNames.length = s.index.length := by
    rw [h4, hg.index]
    cases hmv : attrs.mixingVars with
    | none =>
      have : m ≠ .mixed := fun e => by have := hf.mixed e; simp [hmv] at this
      rw [(index_names attrs).1 hmv, hf.index]; simp [this]
    | some mv =>
      obtain ⟨e1, e2, e3⟩ := hf.mixing mv hmv
      rw [(index_names attrs).2 mv hmv e3]
      simp [e1, e2, hf.index]
  obtain ⟨a1, a2, a3⟩ := addMixing_attrs attrs
  simp only [storeParams, a1, a2, a3, bind, Except.bind]
  obtain ⟨Li, o1, e1, hLi⟩ : ∃ (Li : List String) (o : Option (Series V)),
      storeOptional s.intercepts attrs.interceptNames "Outside_ASC_"
        (addMixingNames attrs).indVarNames [s.index]
        = .ok (o, Li ++ (addMixingNames attrs).indVarNames, s.intercepts.toList ++ [s.index]) ∧
      Li.length = (s.intercepts.getD []).length := by
    rw [h3]
    by_cases hi : g.intercepts = []
    · exact ⟨[], none, by simp [hi, storeOptional], by simp [hi]⟩
    · simp only [hi, if_false]
      have hlen' : ∀ n, attrs.interceptNames = some n → n.length = g.intercepts.length := by
        intro n hn'
        rw [hf.intercepts n hn', hg.intercepts]
        have : g.intercepts.length ≠ 0 := by simpa using hi
        rw [hg.intercepts] at this
        cases outside
        · cases m <;> simp [interceptCount] at this
        · rfl
      obtain ⟨L, l1, l2⟩ := storeOptional_some (pre := "Outside_ASC_")
        (names := (addMixingNames attrs).indVarNames) (params := [s.index]) hlen'
      exact ⟨L, _, by rw [l2]; rfl, by simpa using l1⟩
  simp only [e1]
  obtain ⟨Ls, o2, e2, hLs⟩ : ∃ (Ls : List String) (o : Option (Series V)),
      storeOptional s.shapes attrs.shapeNames "Shape_"
        (Li ++ (addMixingNames attrs).indVarNames) (s.intercepts.toList ++ [s.index])
        = .ok (o, Ls ++ (Li ++ (addMixingNames attrs).indVarNames),
            s.shapes.toList ++ (s.intercepts.toList ++ [s.index])) ∧
      Ls.length = (s.shapes.getD []).length := by
    by_cases hs : HasShapes m
    · rw [h2 hs]
      obtain ⟨L, l1, l2⟩ := storeOptional_some (pre := "Shape_") (given := attrs.shapeNames)
        (names := Li ++ (addMixingNames attrs).indVarNames)
        (params := s.intercepts.toList ++ [s.index]) (p := g.shapes)
        (fun n hn' => by rw [hf.shapes n hn', hg.shapes])
      exact ⟨L, _, by rw [l2]; rfl, by simpa using l1⟩
    · rw [h2' hs]
      exact ⟨[], none, by simp [storeOptional], by simp⟩
  simp only [e2]
  obtain ⟨Ln, o3, e3, hLn⟩ : ∃ (Ln : List String) (o : Option (Series V)),
      storeOptional s.nests attrs.nestNames "Nest_Param_"
        (Ls ++ (Li ++ (addMixingNames attrs).indVarNames))
        (s.shapes.toList ++ (s.intercepts.toList ++ [s.index]))
        = .ok (o, Ln ++ (Ls ++ (Li ++ (addMixingNames attrs).indVarNames)),
            s.nests.toList ++ (s.shapes.toList ++ (s.intercepts.toList ++ [s.index]))) ∧
      Ln.length = (s.nests.getD []).length := by
    by_cases hm : m = .nested
    · rw [h1, if_pos hm]
      obtain ⟨L, l1, l2⟩ := storeOptional_some (pre := "Nest_Param_") (given := attrs.nestNames)
        (names := Ls ++ (Li ++ (addMixingNames attrs).indVarNames))
        (params := s.shapes.toList ++ (s.intercepts.toList ++ [s.index])) (p := g.nests)
        (fun n hn' => by rw [(hf.nests n hn').2, hg.nests, if_pos hm])
      exact ⟨L, _, by rw [l2]; rfl, by simpa using l1⟩
    · rw [h1, if_neg hm]
      exact ⟨[], none, by simp [storeOptional], by simp⟩
  simp only [e3]
  have hfl : ∀ o : Option (List V), o.toList.flatten = o.getD [] := by
    intro o; cases o <;> simp
  have hl : (s.nests.toList ++ (s.shapes.toList ++ (s.intercepts.toList ++ [s.index]))).flatten.length
      = (Ln ++ (Ls ++ (Li ++ (addMixingNames attrs).indVarNames))).length := by
    simp only [List.flatten_append, List.length_append, hfl, hLn, hLs, hLi, hlen, List.flatten_cons,
      List.flatten_nil, List.append_nil]
  simp only [mkSeries, hlen, hl, ne_eq, not_true_eq_false, if_false, pure, Except.pure]
  exact ⟨_, rfl⟩

/-- A mixed model whose table has a column named like a standard deviation cannot store any
result: the guard against adding names twice mistakes that column for a mixing name, and the
number of names no longer matches. -/
theorem sigma_column_breaks_storage (x : List ℝ) (hx : x.length = 2) :
    storeParams ⟨["Sigma noise"], none, none, none, some ["Sigma noise"]⟩
      (splitParamVec .mixed ⟨2, 1, 0, 1⟩ x) = .error .valueError := by
  have h : addMixingNames ⟨["Sigma noise"], none, none, none, some ["Sigma noise"]⟩
      = ⟨["Sigma noise"], none, none, none, some ["Sigma noise"]⟩ := by
    have : strIn "Sigma " "Sigma noise" = true := by decide
    simp [addMixingNames, this]
  simp [storeParams, h, storeOptional, splitParamVec, mkSeries, hx, bind, Except.bind]

/-- Non-vacuity: a mixed model with two columns and one random coefficient. -/
example : NamesFit .mixed ⟨3, 2, 0, 1⟩ ⟨["cost", "time"], none, none, none, some ["time"]⟩ ∧
    checkInitLength .mixed ⟨3, 2, 0, 1⟩ false [10, 20, 30] = .ok () ∧
    (storeParams ⟨["cost", "time"], none, none, none, some ["time"]⟩
      (splitParamVec .mixed ⟨3, 2, 0, 1⟩ [10, 20, 30])).toOption.map (fun r => (r.params.index, r.params.values))
      = some (["cost", "time", "Sigma time"], [10, 20, 30]) := by
  refine ⟨⟨rfl, by simp, by simp, by simp, ?_, by simp⟩, rfl, ?_⟩
  · rintro mv h
    cases h
    refine ⟨rfl, rfl, ?_⟩
    intro x hx
    simp only [List.mem_cons, List.not_mem_nil, or_false] at hx
    rcases hx with rfl | rfl <;> decide
  · rfl

/-- Non-vacuity: an asymmetric model with default names. -/
example : ((storeParams ⟨["cost"], some ["ASC bus"], none, none, none⟩
      (splitParamVec .asym ⟨2, 1, 0, 0⟩ [10, 20, 30])).toOption.map
        fun r => (r.params.index, r.params.values))
      = some (["Shape_1", "ASC bus", "cost"], [10, 20, 30]) := by
  rfl

end Pylogit
