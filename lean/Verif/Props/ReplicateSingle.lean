import Verif.Props.ReplicateLikes

/-!
# C74, a single replicate and two alternatives

For two alternatives there is one outside intercept and one asymmetric shape.  With a single replicate these
single numbers can be assigned, the products with the mapping are one-dimensional, and broadcasting them with
the column of indices gives an array with a column for every *row* of the data.
-/

open Finset Matrix

set_option linter.unusedSectionVars false

namespace Pylogit

open Spec

theorem scatterSingle_eq (m : ℕ) (idxs : List ℕ) (x : Fin 1 → ℝ) :
    scatterSingle m idxs [x] = scatter m idxs [x 0] := by
  unfold scatterSingle scatter
  by_cases h : ∃ i ∈ idxs, m ≤ i
  · rw [if_pos h, if_pos h]
  · rw [if_neg h, if_neg h]
    simp only [dite_true]
    split_ifs with hl
    · obtain ⟨i, rfl⟩ := List.length_eq_one_iff.1 hl.symm
      congr 1
      refine List.map_congr_left fun j _ => ?_
      by_cases hj : j = i
      · subst hj; simp
      · simp [hj]
    · rfl

theorem interceptTerm2_single {cls : ModelType} {n m : ℕ} {rta : Matrix (Fin n) (Fin m) ℝ} {ref : PyRef}
    (hr : ref ≠ .none) (x : Fin 1 → ℝ) :
    interceptTerm2 cls rta ref (some [x]) =
      (interceptTerm cls rta ref (some [x 0])).map fun a => some (.vec a) := by
  cases ref with
  | none => exact absurd rfl hr
  | int z =>
    simp only [interceptTerm2, interceptTerm, List.length_singleton, scatterSingle_eq, lt_irrefl, if_false,
      bind, Except.bind]
    split
    · rfl
    · split
      · rfl
      · split <;> simp_all [Except.map]
  | _ =>
    simp only [interceptTerm2, interceptTerm, List.length_singleton, scatterSingle_eq, lt_irrefl, if_false,
      bind, Except.bind]
    split
    · rfl
    · split
      · rfl
      · split <;> simp_all [Except.map]

theorem etaTerm2_single {n m : ℕ} {rta : Matrix (Fin n) (Fin m) ℝ} {ref : PyRef} (x : Fin 1 → ℝ) :
    etaTerm2 rta ref [x] = (shapeTerm .asym rta ref (some [x 0])).map .vec := by
  cases ref with
  | int z =>
    simp only [etaTerm2, shapeTerm, etaToC, if_true, List.length_singleton, List.map_cons, List.map_nil,
      scatterSingle_eq, lt_irrefl, if_false, bind, Except.bind, dite_true, Fin.mk_zero]
    split
    · rfl
    · rename_i idxs _
      generalize hs : scatter (W := ℝ) (1 + 1) idxs _ = sc
      cases sc with
      | error e => rfl
      | ok c =>
        simp only
        generalize mappingDot rta _ = md
        cases md <;> rfl
  | _ => rfl

variable {m : ChoiceModel ℝ} {s : List (String × SpecVal ℝ)} {alts : List ℝ} {df : Frame ℝ}

private lemma single_of_length {x : List (Fin 1 → ℝ)} (h : x.length = 1) : ∃ y, x = [y] :=
  List.length_eq_one_iff.1 h

/-- **C74** (disagreement).  A single replicate of an asymmetric model for two alternatives gives as many
numbers as the data has rows (if there are two or more).  The `t`-th is the log-likelihood when *every* row
gets the shape and the intercept of the alternative of row `t`. -/
theorem replicate_likes_one_asym_two (env : Env ℝ)
    (hdf : df = addIntercept m.args.specification m.data) (hp : Predictable m df s alts)
    (hm : MarksChoices df m.args.obsIdCol m.args.choiceCol) (g : Groups (Fin 1 → ℝ))
    (hg : ReplicatesFor m g) (hcls : m.cls = .asym) (h2 : alts.length = 2) (hrows : 2 ≤ df.numRows)
    (hshape : g.shapes.length = 1) (hicpt : g.intercepts.length ≤ 1) (q : AltParams)
    (hq : HoldsFor .asym alts m.args.interceptRefPos m.args.shapeRefPos (column (groupArrays g) 0) q) :
    replicateLikes env m g.flat = .ok (List.ofFn fun t : Fin df.numRows =>
      dataLogLik df m.args.choiceCol (clippedLogit (df.val m.args.obsIdCol) fun r =>
        rowUtility .asym alts q (df.val m.args.altIdCol t)
          (rowIndex df m.args.altIdCol (specColumns alts s) (g.index.map fun x => x 0) r))) := by
  obtain ⟨y, hy⟩ := single_of_length hshape
  have hs : (groupArrays g).shapes = some [y] := by simp [groupArrays, orNone, hy]
  have hs0 : (column (groupArrays g) 0).shapes = some [y 0] := by simp [column, hs]
  -- the one-dimensional transformation of a constant index
  have ht : ∀ w : ℝ, predictTransform .asym (df.rowsToAlts m.args.altIdCol) m.args.interceptRefPos
      m.args.shapeRefPos (column (groupArrays g) 0) (fun _ => w) =
      .ok fun r => rowUtility .asym alts q (df.val m.args.altIdCol r) w :=
    fun w => transform_ok hp.isAlts (fun _ => by omega) hq _
  have hint := interceptTerm_col hp.isAlts hq .asym
  obtain ⟨c, hc⟩ : ∃ c, shapeTerm .asym (df.rowsToAlts m.args.altIdCol) m.args.shapeRefPos
      (some [y 0]) = .ok c := by
    cases h : shapeTerm .asym (df.rowsToAlts m.args.altIdCol) m.args.shapeRefPos (some [y 0]) with
    | ok c => exact ⟨c, rfl⟩
    | error e =>
      have := ht 0
      simp [predictTransform, hs0, h, bind, Except.bind] at this
  have hrow : ∀ t w, asymH (npSort (npUnique (df.colList m.args.altIdCol))).length (c t) w +
      q.icpt (df.val m.args.altIdCol t) = rowUtility .asym alts q (df.val m.args.altIdCol t) w := by
    intro t w
    have := ht w
    simp only [predictTransform, hs0, hc, hint, bind, Except.bind] at this
    exact congrFun (Except.ok.inj this) t
  have hb : ∀ v : Fin df.numRows → Fin 1 → ℝ,
      broadcast (asymH (npSort (npUnique (df.colList m.args.altIdCol))).length) (.vec c) v =
      .ok ⟨df.numRows, fun r t => asymH (npSort (npUnique (df.colList m.args.altIdCol))).length (c t)
        (v r 0)⟩ := by
    intro v
    unfold broadcast
    simp only
    rw [dif_neg (by omega), dif_pos trivial]
    rfl
  rw [replicateLikes_eq hdf hp hg hm, hcls]
  simp only [predictTransform2, hs, etaTerm2_single, hc, Except.map, bind, Except.bind, hb]
  rcases Nat.lt_or_ge 0 g.intercepts.length with h | h
  · obtain ⟨z, hz⟩ := single_of_length (x := g.intercepts) (by omega)
    have hi : (groupArrays g).intercepts = some [z] := by simp [groupArrays, orNone, hz]
    have hi0 : (column (groupArrays g) 0).intercepts = some [z 0] := by simp [column, hi]
    have href : m.args.interceptRefPos ≠ .none := by
      obtain ⟨k, -, hk, -⟩ := hq.icpt _ hi0
      rw [hk]; simp
    rw [hi0] at hint
    simp only [hi, interceptTerm2_single href, hint, Except.map, addIntercepts, inplaceAdd, dite_true]
    congr 1
    simp only [Fin.cast_eq_self, hrow]
    rfl
  · have hz : g.intercepts = [] := List.eq_nil_of_length_eq_zero (by omega)
    have hi : (groupArrays g).intercepts = none := by simp [groupArrays, orNone, hz]
    simp only [hi, interceptTerm2_none, addIntercepts]
    have h0 : ∀ t, q.icpt (df.val m.args.altIdCol t) = 0 := fun t =>
      hq.noIcpt (by simp [column, hi]) _ ((hp.isAlts.mem _).2 ⟨t, rfl⟩)
    congr 1
    have hrow' : ∀ t w, asymH (npSort (npUnique (df.colList m.args.altIdCol))).length (c t) w =
        rowUtility .asym alts q (df.val m.args.altIdCol t) w := by
      intro t w
      rw [← hrow, h0, add_zero]
    simp only [hrow']
    rfl

/-- **C74** (disagreement).  A single replicate of a Scobit model with an outside intercept for two
alternatives gives as many numbers as the data has rows (if there are two or more).  The `t`-th is the
log-likelihood when every row gets the intercept of the alternative of row `t`. -/
theorem replicate_likes_one_scobit_two (env : Env ℝ)
    (hdf : df = addIntercept m.args.specification m.data) (hp : Predictable m df s alts)
    (hm : MarksChoices df m.args.obsIdCol m.args.choiceCol) (g : Groups (Fin 1 → ℝ))
    (hg : ReplicatesFor m g) (hcls : m.cls = .scobit) (hrows : 2 ≤ df.numRows)
    (hicpt : g.intercepts.length = 1) (q : AltParams)
    (hq : HoldsFor .scobit alts m.args.interceptRefPos m.args.shapeRefPos (column (groupArrays g) 0) q) :
    replicateLikes env m g.flat = .ok (List.ofFn fun t : Fin df.numRows =>
      dataLogLik df m.args.choiceCol (clippedLogit (df.val m.args.obsIdCol) fun r =>
        rowUtility .scobit alts ⟨fun _ => q.icpt (df.val m.args.altIdCol t), q.shape⟩
          (df.val m.args.altIdCol r)
          (rowIndex df m.args.altIdCol (specColumns alts s) (g.index.map fun x => x 0) r))) := by
  obtain ⟨z, hz⟩ := single_of_length hicpt
  have hi : (groupArrays g).intercepts = some [z] := by simp [groupArrays, orNone, hz]
  have hi0 : (column (groupArrays g) 0).intercepts = some [z 0] := by simp [column, hi]
  have href : m.args.interceptRefPos ≠ .none := by
    obtain ⟨k, -, hk, -⟩ := hq.icpt _ hi0
    rw [hk]; simp
  have hint := interceptTerm_col hp.isAlts hq .scobit
  have hs0 : (column (groupArrays g) 0).shapes = some (alts.map q.shape) := hq.shape (Or.inl rfl)
  obtain ⟨x, hx⟩ : ∃ x, (groupArrays g).shapes = some x := by
    cases hx : (groupArrays g).shapes with
    | none => simp [column, hx] at hs0
    | some x => exact ⟨x, rfl⟩
  have hxx : x = alts.map fun a (_ : Fin 1) => q.shape a := by
    simp only [column, hx, Option.map_some, Option.some.injEq] at hs0
    have := congrArg (List.map fun y => fun _ : Fin 1 => y) hs0
    simp only [List.map_map, Function.comp_def] at this
    rw [← this]
    refine (List.map_id x).symm.trans (List.map_congr_left fun y _ => ?_)
    funext e
    rw [Subsingleton.elim e 0]
    rfl
  have hc : shapeTerm2 (df.rowsToAlts m.args.altIdCol) (groupArrays g).shapes =
      .ok fun r _ => Real.exp (q.shape (df.val m.args.altIdCol r)) := by
    rw [hx, shapeTerm2, hxx, List.map_map]
    exact mappingDot2_map hp.isAlts fun _ a => Real.exp (q.shape a)
  have hrow : ∀ r w, q.icpt (df.val m.args.altIdCol r) +
      scobitH (Real.exp (q.shape (df.val m.args.altIdCol r))) w =
      rowUtility .scobit alts q (df.val m.args.altIdCol r) w := by
    intro r w
    have ht := transform_ok (cls := .scobit) hp.isAlts (by simp) hq fun _ => w
    simp only [predictTransform, hint, shapeTerm, hs0, reduceCtorEq, if_false,
      List.map_map, mappingDot_map hp.isAlts, bind, Except.bind] at ht
    exact congrFun (Except.ok.inj ht) r
  have hrow' : ∀ (t r : Fin df.numRows) w, q.icpt (df.val m.args.altIdCol t) +
      scobitH (Real.exp (q.shape (df.val m.args.altIdCol r))) w =
      rowUtility .scobit alts ⟨fun _ => q.icpt (df.val m.args.altIdCol t), q.shape⟩
        (df.val m.args.altIdCol r) w := by
    intro t r w
    have := hrow r w
    simp only [rowUtility] at this ⊢
    linarith
  rw [hi0] at hint
  rw [replicateLikes_eq hdf hp hg hm, hcls]
  simp only [predictTransform2, hi, interceptTerm2_single href, hint, Except.map, hc, bind, Except.bind,
    Option.getD_some]
  unfold broadcast
  simp only
  rw [dif_neg (by omega), dif_pos trivial]
  simp only [hrow']
  rfl

/-- **C74** (argument checks).  If the number of shapes of the replicates of an uneven logit model is not the
number of alternatives, the log-likelihoods are refused: no shape is dropped or made up. -/
theorem replicate_likes_shape_count {d : ℕ} (env : Env ℝ)
    (hdf : df = addIntercept m.args.specification m.data) (hp : Predictable m df s alts)
    (hm : MarksChoices df m.args.obsIdCol m.args.choiceCol) (g : Groups (Fin d → ℝ))
    (hg : ReplicatesFor m g) (hcls : m.cls = .uneven) (hs0 : g.shapes ≠ [])
    (hs : g.shapes.length ≠ alts.length) :
    replicateLikes env m g.flat = .error .valueError := by
  have e := altsOf_eq hp.isAlts
  have hs' : (groupArrays g).shapes = some g.shapes := by simp [groupArrays, orNone, hs0]
  rw [replicateLikes_eq hdf hp hg hm, hcls]
  have : shapeTerm2 (df.rowsToAlts m.args.altIdCol) (groupArrays g).shapes = .error .valueError := by
    rw [hs', shapeTerm2, mappingDot2, if_pos (by simpa [e] using hs)]
  simp only [predictTransform2, this, bind, Except.bind, Except.map]

/-! ### The hypotheses are met -/

/-- Two rows, two alternatives, an asymmetric model with an outside intercept, one replicate: two numbers. -/
example (env : Env ℝ) : ∃ l, replicateLikes env (repModel .asym 2 ["c2"] ["s2"])
    (repGroups 1 1 1).flat = .ok l ∧ l.length = 2 := by
  refine ⟨_, replicate_likes_one_asym_two env (repModel_data ..) (repModel_predictable ..)
    (repTable_marks 2) _ (repGroups_for .asym 1 2 ["c2"] ["s2"]) rfl (by simp [repAlts])
    (by simp [repTable]) (by simp [repGroups]) (by simp [repGroups]) ⟨fun a => 0 * (a - 1), fun a => 0 * (a - 1)⟩
    ?_, by simp [repTable]⟩
  have h0 : ((repAlts 2).eraseIdx 0).map (fun a : ℝ => 0 * (a - 1)) = [0] := by
    simp [repAlts, List.range_succ]
  have h := rep_others (n := 2) (by norm_num) 0
  rw [h0] at h
  refine ⟨?_, ?_, ?_, ?_⟩
  · intro hx; simp [column, groupArrays, repGroups, orNone] at hx
  · intro x hx
    simp only [column, groupArrays, repGroups, orNone] at hx
    simp at hx
    subst hx
    exact h
  · intro h; simp at h
  · intro _
    exact ⟨[0], by simp [column, groupArrays, repGroups, orNone], h⟩

/-- Two rows, two alternatives, a Scobit model with an outside intercept, one replicate: two numbers. -/
example (env : Env ℝ) : ∃ l, replicateLikes env (repModel .scobit 2 ["c2"] ["s1", "s2"])
    (repGroups 1 2 1).flat = .ok l ∧ l.length = 2 := by
  refine ⟨_, replicate_likes_one_scobit_two env (repModel_data ..) (repModel_predictable ..)
    (repTable_marks 2) _ (repGroups_for .scobit 1 2 ["c2"] ["s1", "s2"]) rfl
    (by simp [repTable]) (by simp [repGroups]) ⟨fun a => 0 * (a - 1), fun a => 0⟩
    ?_, by simp [repTable]⟩
  have h0 : ((repAlts 2).eraseIdx 0).map (fun a : ℝ => 0 * (a - 1)) = [0] := by
    simp [repAlts, List.range_succ]
  have h := rep_others (n := 2) (by norm_num) 0
  rw [h0] at h
  refine ⟨?_, ?_, ?_, ?_⟩
  · intro hx; simp [column, groupArrays, repGroups, orNone] at hx
  · intro x hx
    simp only [column, groupArrays, repGroups, orNone] at hx
    simp at hx
    subst hx
    exact h
  · intro _
    simp [column, groupArrays, repGroups, orNone, repAlts, List.range_succ, List.replicate]
  · intro h; cases h

/-- Four shapes for three alternatives. -/
example (env : Env ℝ) : replicateLikes env (repModel .uneven 3 [] ["s1", "s2", "s3", "s4"])
    (repGroups 5 4 0).flat = .error .valueError :=
  replicate_likes_shape_count env (repModel_data ..) (repModel_predictable ..) (repTable_marks 3) _
    (repGroups_for .uneven 5 3 [] ["s1", "s2", "s3", "s4"]) rfl (by simp [repGroups])
    (by simp [repGroups, repAlts])

end Pylogit
