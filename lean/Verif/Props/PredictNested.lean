import Verif.Props.Predict
import Verif.Props.Nested
import Verif.Props.Mixed

/-! # C68 for the nested logit, and C75: the parts `predict` returns -/

open Finset Matrix

set_option linter.unusedSectionVars false

namespace Pylogit

open Spec

theorem zip_sum {α : Type} (l : List α) (b : List ℝ) (hl : l.length = b.length) (f : α → ℝ) :
    ((l.zip b).map fun p => f p.1 * p.2).sum = ∑ k : Fin l.length, f l[k] * b.getD k 0 := by
  have : (l.zip b).map (fun p => f p.1 * p.2) = List.ofFn fun k : Fin l.length => f l[k] * b.getD k 0 := by
    refine List.ext_getElem (by simp [hl]) fun i h1 h2 => ?_
    have hi : i < b.length := by simpa [hl] using h1
    simp [List.getElem?_eq_getElem hi]
  rw [this, List.sum_ofFn]

theorem nestedProb_congr {R O O' N : Type} [Fintype R] [Fintype N] [DecidableEq O] [DecidableEq O']
    [DecidableEq N] {f : R → O} {f' : R → O'} (h : ∀ r s, f r = f s ↔ f' r = f' s) (g : R → N)
    (V : R → ℝ) (lam : N → ℝ) : nestedProb f g V lam = nestedProb f' g V lam := by
  have hr : ∀ r m, nestRows f g (f r) m = nestRows f' g (f' r) m := by
    intro r m
    ext s
    simp only [nestRows, Finset.mem_filter, Finset.mem_univ, true_and, h]
  funext r
  simp only [nestedProb, nestProb, condProb, nestSum, availNests, hr]

/-- The nests of the rows of a table. -/
theorem frame_rowsToNests {df : Frame ℝ} {col : String} {nestSpec : List (String × List ℝ)}
    {alts : List ℝ} (ha : AltsOf df col alts) (hk : (nestSpec.map Prod.fst).Nodup)
    (hone : ∀ a ∈ alts, InOneNest nestSpec a) :
    ∃ g : Fin df.numRows → Fin nestSpec.length, (∀ r, df.val col r ∈ (nestSpec.get (g r)).2) ∧
      df.rowsToNests col nestSpec = .ok (Matrix.of fun r j => if g r = j then 1 else 0) := by
  have hmem : ∀ r, df.val col r ∈ alts := fun r => (ha.mem _).2 ⟨r, rfl⟩
  have hex : ∀ r : Fin df.numRows, ∃ j : Fin nestSpec.length,
      df.val col r ∈ (nestSpec.get j).2 ∧
        nestIdOf nestSpec (df.val col r) = .ok (j.val + 1) := by
    intro r
    obtain ⟨j, n, hj, hn, hid, -⟩ := nestIdOf_unique hk (hone _ (hmem r))
    obtain ⟨hlt, rfl⟩ := List.getElem?_eq_some_iff.1 hj
    exact ⟨⟨j, hlt⟩, hn, hid⟩
  choose g hg hid using hex
  refine ⟨g, hg, ?_⟩
  have hids : (df.colList col).mapM (nestIdOf nestSpec) = .ok (List.ofFn fun r => (g r).val + 1) := by
    have hlist : ∀ {n : ℕ} (x : Fin n → ℝ) (k : Fin n → ℕ), (∀ r, nestIdOf nestSpec (x r) = .ok (k r)) →
        (List.ofFn x).mapM (nestIdOf nestSpec) = .ok (List.ofFn k) := by
      intro n
      induction n with
      | zero => intro x k _; simp [pure, Except.pure]
      | succ n ih =>
        intro x k hx
        simp only [List.ofFn_succ, List.mapM_cons, hx 0, ih _ _ fun r => hx r.succ, bind, Except.bind, pure,
          Except.pure]
    exact hlist _ _ hid
  simp only [Frame.rowsToNests, hids, bind, Except.bind]
  congr 1
  refine Matrix.ext fun r j => ?_
  simp only [Matrix.of_apply, List.getElem?_ofFn, r.2, dite_true, Fin.eta, Option.some.injEq,
    Nat.add_right_cancel_iff, Fin.val_inj]

/-- The nested probabilities of the rows of a table with a described design. -/
theorem nestedLong_frame {df : Frame ℝ} {obsCol altCol : String} {alts nests index : List ℝ}
    {s : List (String × SpecVal ℝ)} {nestSpec : List (String × List ℝ)}
    {cols : List (Fin df.numRows → ℝ)} {g : Fin df.numRows → Fin nestSpec.length}
    (hcols : cols = (s.flatMap fun kv => kv.2.columns alts kv.1).map fun d => d.value df altCol)
    (hl2 : cols.length = index.length) (r : Fin df.numRows) :
    nestedLongProbs (naturalizeNestCoefs fun j : Fin nestSpec.length => nests.getD j 0)
        (fun k : Fin cols.length => index.getD k 0)
        (Matrix.of fun r (k : Fin cols.length) => cols[k] r) (df.rowsToObs obsCol)
        (Matrix.of fun r j => if g r = j then 1 else 0) r =
      nestedProb (df.val obsCol) g (rowIndex df altCol (specColumns alts s) index)
        (fun n => 1 / (1 + Real.exp (-(nests.getD n 0)))) r := by
  obtain ⟨f, hf, hiff⟩ := df.rowsToObs_indicates obsCol
  rw [nestedLongProbs_eq hf (g := g) (fun r j => by rfl) (fun n => naturalize_pos _ n)]
  have hfc : ∀ r s, f r = f s ↔ df.val obsCol r = df.val obsCol s := by
    intro r s
    rw [hiff, ← (hiff s (f s)).1 rfl]
  rw [nestedProb_congr hfc]
  congr 2
  · funext r
    have hv : rowIndex df altCol (specColumns alts s) index r =
        ((cols.zip index).map fun p => p.1 r * p.2).sum := by
      rw [hcols, rowIndex, List.zip_map_left, List.map_map]
      rfl
    rw [hv, zip_sum cols _ hl2 fun c => c r]
    rfl
  · funext n
    rw [naturalize_eq]

/-- **C68** (nested logit). Let the nest names be distinct and every alternative of the table be listed in
exactly one nest, once.  Whenever `predict` is asked for the long probabilities and returns, it returns just
them, and the probability of a row is the nested logit probability with the coefficients of the described
columns, where each row belongs to the nest that lists its alternative and each nest has its own coefficient
`1 / (1 + exp (-x))`. -/
theorem predict_nested {env : Env ℝ} {m : ChoiceModel ℝ} {nestSpec : List (String × List ℝ)}
    {s : List (String × SpecVal ℝ)} (hspec : m.args.specification = encodeAll s) {stored : ParamArrays}
    {df : Frame ℝ} {pl : Option ParamArrays} {cc : Option String} {res} {alts : List ℝ}
    (ha : AltsOf df m.args.altIdCol alts) (hk : (nestSpec.map Prod.fst).Nodup)
    (hone : ∀ a ∈ alts, InOneNest nestSpec a)
    (h : predictNestedFrame env m nestSpec stored df pl true cc = .ok res) :
    ∃ (nests : List ℝ) (g : Fin df.numRows → Fin nestSpec.length),
      (pl.getD stored).nests = some nests ∧ nests.length = nestSpec.length ∧
      (∀ r, df.val m.args.altIdCol r ∈ (nestSpec.get (g r)).2) ∧
      res = .long (nestedProb (df.val m.args.obsIdCol) g
        (rowIndex df m.args.altIdCol (specColumns alts s) (pl.getD stored).index)
        fun n => 1 / (1 + Real.exp (-(nests.getD n 0)))) := by
  unfold predictNestedFrame at h
  cases h1 : predictChecks m df pl true cc with
  | error e => simp [h1, bind, Except.bind] at h
  | ok u =>
  cases h2 : createDesignMatrix env.fmt env.fmtList df m.args.specification m.args.altIdCol m.args.names with
  | error e => simp [h1, h2, bind, Except.bind] at h
  | ok d =>
  cases h3 : choiceArray df cc with
  | error e => simp [h1, h2, h3, bind, Except.bind] at h
  | ok y =>
  obtain ⟨g, hg, hrtn⟩ := frame_rowsToNests ha hk hone
  simp only [h1, h2, h3, hrtn, bind, Except.bind] at h
  cases hn : (pl.getD stored).nests with
  | none => simp [hn] at h
  | some nests =>
  simp only [hn] at h
  split_ifs at h with hlen
  push Not at hlen
  obtain ⟨hl1, hl2⟩ := hlen
  refine ⟨nests, g, rfl, hl1, hg, ?_⟩
  have hcols := design_entries (cols := d.1) (nms := d.2) ha (by rw [← hspec]; exact h2)
  have hlong : ∀ res', calcNestedProbs (naturalizeNestCoefs fun j : Fin nestSpec.length => nests.getD j 0)
      (fun k : Fin d.1.length => (pl.getD stored).index.getD k 0)
      (Matrix.of fun r (k : Fin d.1.length) => d.1[k] r) (df.rowsToObs m.args.obsIdCol)
      (Matrix.of fun r j => if g r = j then 1 else 0)
      (y.map fun y => Matrix.of fun r o => df.rowsToObs m.args.obsIdCol r o * y r) "long_probs" = .ok res' →
      res' = .long (nestedLongProbs (naturalizeNestCoefs fun j : Fin nestSpec.length => nests.getD j 0)
        (fun k : Fin d.1.length => (pl.getD stored).index.getD k 0)
        (Matrix.of fun r (k : Fin d.1.length) => d.1[k] r) (df.rowsToObs m.args.obsIdCol)
        (Matrix.of fun r j => if g r = j then 1 else 0)) := by
    intro res' hr
    simp [calcNestedProbs] at hr
    exact hr.symm
  rw [hlong _ h]
  congr 1
  funext r
  exact nestedLong_frame hcols hl2 r

/-- **C68** (nested logit, success). -/
theorem predict_nested_succeeds (env : Env ℝ) (m : ChoiceModel ℝ) {nestSpec : List (String × List ℝ)}
    {s : List (String × SpecVal ℝ)} (hspec : m.args.specification = encodeAll s)
    (hnames : m.args.names = none) (hmix : m.args.mixingIdCol = none) (stored : ParamArrays)
    (df : Frame ℝ) (cc : Option String) {alts nests : List ℝ} (ha : AltsOf df m.args.altIdCol alts)
    (hk : (nestSpec.map Prod.fst).Nodup) (hone : ∀ a ∈ alts, InOneNest nestSpec a)
    (hn : stored.nests = some nests) (hnl : nests.length = nestSpec.length)
    (halt : m.args.altIdCol ∈ df.columns) (hobs : m.args.obsIdCol ∈ df.columns)
    (hvars : ∀ kv ∈ s, kv.1 ∈ df.columns) (hvalid : ∀ kv ∈ s, kv.2.ValidFor alts)
    (hne : specColumns alts s ≠ []) (hlen : stored.index.length = (specColumns alts s).length)
    (hcc : ∀ c ∈ cc, c ∈ df.columns) :
    ∃ res, predictNestedFrame env m nestSpec stored df none true cc = .ok res := by
  have hchk : predictChecks (W := ℝ) m df none true cc = .ok () := by
    have h1 : ensureColumnsInDataframe [m.args.altIdCol] df = .ok () := ensureColumns_ok.2 (by simpa)
    have h2 : ensureColumnsInDataframe [m.args.obsIdCol] df = .ok () := ensureColumns_ok.2 (by simpa)
    simp only [predictChecks, h1, h2, hmix, bind, Except.bind]
    rw [if_neg (by simp)]
  have hd := design_success env.fmt env.fmtList df s m.args.altIdCol alts ha halt hvars hvalid hne
  rw [← hspec, ← hnames] at hd
  obtain ⟨g, -, hrtn⟩ := frame_rowsToNests ha hk hone
  have hif : ¬ (nests.length ≠ nestSpec.length ∨
      ((s.flatMap fun kv => kv.2.columns alts kv.1).map fun d => d.value df m.args.altIdCol).length ≠
        stored.index.length) := by
    rw [List.length_map, hlen, hnl]
    simp [specColumns]
  simp only [predictNestedFrame, hchk, hd, choiceArray_ok.2 ⟨hcc, rfl⟩, hrtn, bind, Except.bind,
    Option.getD_none, hn]
  rw [if_neg hif]
  simp [calcNestedProbs]

/-- A nested logit of two nests, on the table of `exTable`. -/
example (env : Env ℝ) : ∃ res, predictNestedFrame env exClog [("a", [1]), ("b", [2])]
    ⟨[1 / 2], none, none, some [0, 1]⟩ (exTable 1 2) none true none = .ok res :=
  predict_nested_succeeds env exClog (s := [("x", .allSame)]) rfl rfl rfl _ (exTable 1 2) none
    (exTable_alts (by norm_num)) (by decide) (by simp [InOneNest]) rfl rfl (by simp [exClog, exTable])
    (by simp [exClog, exTable]) (by simp [exTable]) (by simp [SpecVal.ValidFor])
    (by simp [specColumns, SpecVal.columns]) (by simp [specColumns, SpecVal.columns]) (by simp)

/-! ## C75: the parts returned -/

/-- **C75** (neither part). Asking for neither part is an error for every model. -/
theorem predict_neither (env : Env ℝ) (m : ChoiceModel ℝ) (stored : ParamArrays) (df : Frame ℝ)
    (pl : Option ParamArrays) (nestSpec : List (String × List ℝ)) :
    (∃ e, predictFrame env m stored df pl false none = .error e) ∧
    ∃ e, predictNestedFrame env m nestSpec stored df pl false none = .error e := by
  have h : ∃ e, predictChecks m df pl false none = .error e := by
    unfold predictChecks
    cases h1 : ensureColumnsInDataframe [m.args.altIdCol] df with
    | error e => exact ⟨e, rfl⟩
    | ok u =>
    cases h2 : ensureColumnsInDataframe [m.args.obsIdCol] df with
    | error e => exact ⟨e, rfl⟩
    | ok u =>
    cases h3 : (match m.args.mixingIdCol with
      | none => (.ok () : Except Err Unit)
      | some c => ensureColumnsInDataframe [c] df) with
    | error e =>
      refine ⟨e, ?_⟩
      cases hm : m.args.mixingIdCol <;> rw [hm] at h3 <;> simp only [bind, Except.bind] <;> simp_all
    | ok u =>
      cases hp : pl with
      | none =>
        refine ⟨.valueError, ?_⟩
        cases hm : m.args.mixingIdCol <;> rw [hm] at h3 <;> simp only [bind, Except.bind] <;> simp_all
      | some p =>
        cases h4 : checkParamListValidity m p with
        | error e =>
          refine ⟨e, ?_⟩
          cases hm : m.args.mixingIdCol <;> rw [hm] at h3 <;> simp only [bind, Except.bind] <;> simp_all
        | ok u =>
          refine ⟨.valueError, ?_⟩
          cases hm : m.args.mixingIdCol <;> rw [hm] at h3 <;> simp only [bind, Except.bind] <;> simp_all
  obtain ⟨e, he⟩ := h
  exact ⟨⟨e, by simp [predictFrame, he, bind, Except.bind]⟩,
    ⟨e, by simp [predictNestedFrame, he, bind, Except.bind]⟩⟩

/-- **C75** (logit-type models). Whenever `predict` returns, the long probabilities are there exactly when
`return_long_probs` is set, and the chosen probabilities exactly when a choice column is given. -/
theorem predict_parts_partial {env : Env ℝ} {m : ChoiceModel ℝ} {stored : ParamArrays} {df : Frame ℝ}
    {pl : Option ParamArrays} {rl : Bool} {cc : Option String} {res}
    (h : predictFrame env m stored df pl rl cc = .ok res) :
    ((longPart res).isSome ↔ rl = true) ∧ ((chosenPart res).isSome ↔ cc.isSome = true) := by
  have hn : ¬ (rl = false ∧ cc = none) := by
    rintro ⟨rfl, rfl⟩
    obtain ⟨e, he⟩ := (predict_neither env m stored df pl []).1
    rw [he] at h
    cases h
  obtain ⟨-, -, d, -, v, -, t, -, rfl⟩ := predictFrame_ok.1 h
  cases cc <;> cases rl <;> simp_all [probParts, longPart, chosenPart]

/-- **C75** (nested logit, disagreement). With `return_long_probs=True` and a choice column, where the tuple
of both is documented, the nested logit returns the long probabilities alone. -/
theorem predict_nested_omits_chosen {env : Env ℝ} {m : ChoiceModel ℝ}
    {nestSpec : List (String × List ℝ)} {stored : ParamArrays} {df : Frame ℝ} {pl : Option ParamArrays}
    {c : String} {res} (h : predictNestedFrame env m nestSpec stored df pl true (some c) = .ok res) :
    ∃ l, res = .long l := by
  unfold predictNestedFrame at h
  cases h1 : predictChecks m df pl true (some c) with
  | error e => simp [h1, bind, Except.bind] at h
  | ok u =>
  cases h2 : createDesignMatrix env.fmt env.fmtList df m.args.specification m.args.altIdCol m.args.names with
  | error e => simp [h1, h2, bind, Except.bind] at h
  | ok d =>
  cases h3 : choiceArray df (some c) with
  | error e => simp [h1, h2, h3, bind, Except.bind] at h
  | ok y =>
  cases h4 : df.rowsToNests m.args.altIdCol nestSpec with
  | error e => simp [h1, h2, h3, h4, bind, Except.bind] at h
  | ok rtn =>
  simp only [h1, h2, h3, h4, bind, Except.bind] at h
  cases hn : (pl.getD stored).nests with
  | none => simp [hn] at h
  | some nests =>
  simp only [hn] at h
  split_ifs at h
  simp [calcNestedProbs] at h
  exact ⟨_, h.symm⟩

/-- **C68** and **C75** (nested logit, chosen probabilities only). With a choice column and without
`return_long_probs`, `predict` returns for every observation, in order of first appearance, the sum over its
rows of the choice column times the nested logit probability of the row. -/
theorem predict_nested_chosen {env : Env ℝ} {m : ChoiceModel ℝ} {nestSpec : List (String × List ℝ)}
    {s : List (String × SpecVal ℝ)} (hspec : m.args.specification = encodeAll s) {stored : ParamArrays}
    {df : Frame ℝ} {pl : Option ParamArrays} {c : String} {res} {alts : List ℝ}
    (ha : AltsOf df m.args.altIdCol alts) (hk : (nestSpec.map Prod.fst).Nodup)
    (hone : ∀ a ∈ alts, InOneNest nestSpec a)
    (h : predictNestedFrame env m nestSpec stored df pl false (some c) = .ok res) :
    ∃ (nests : List ℝ) (g : Fin df.numRows → Fin nestSpec.length),
      (pl.getD stored).nests = some nests ∧ nests.length = nestSpec.length ∧
      (∀ r, df.val m.args.altIdCol r ∈ (nestSpec.get (g r)).2) ∧
      res = .chosen fun o =>
        ∑ r with df.val m.args.obsIdCol r =
            (originalOrderUniqueIds (df.colList m.args.obsIdCol)).get o,
          df.val c r * nestedProb (df.val m.args.obsIdCol) g
            (rowIndex df m.args.altIdCol (specColumns alts s) (pl.getD stored).index)
            (fun n => 1 / (1 + Real.exp (-(nests.getD n 0)))) r := by
  unfold predictNestedFrame at h
  cases h1 : predictChecks m df pl false (some c) with
  | error e => simp [h1, bind, Except.bind] at h
  | ok u =>
  cases h2 : createDesignMatrix env.fmt env.fmtList df m.args.specification m.args.altIdCol m.args.names with
  | error e => simp [h1, h2, bind, Except.bind] at h
  | ok d =>
  cases h3 : choiceArray df (some c) with
  | error e => simp [h1, h2, h3, bind, Except.bind] at h
  | ok y =>
  obtain ⟨-, rfl⟩ := choiceArray_ok.1 h3
  obtain ⟨g, hg, hrtn⟩ := frame_rowsToNests ha hk hone
  simp only [h1, h2, h3, hrtn, bind, Except.bind] at h
  cases hn : (pl.getD stored).nests with
  | none => simp [hn] at h
  | some nests =>
  simp only [hn, Bool.false_eq_true, if_false] at h
  split_ifs at h with hlen
  · push Not at hlen
    obtain ⟨hl1, hl2⟩ := hlen
    refine ⟨nests, g, rfl, hl1, hg, ?_⟩
    have hcols := design_entries (cols := d.1) (nms := d.2) ha (by rw [← hspec]; exact h2)
    simp [calcNestedProbs] at h
    rw [← h]
    congr 1
    funext o
    simp only [nestedChosenProbs, mulVec, dotProduct, transpose_apply, Matrix.of_apply,
      Frame.rowsToObs_apply]
    rw [Finset.sum_filter]
    refine Finset.sum_congr rfl fun r _ => ?_
    rw [← nestedLong_frame hcols hl2 r]
    split_ifs <;> simp

/-! ## C68: the intercept column -/

/-- A table with a column of ones named `intercept` at its end. -/
def Spec.withOnes (df : Frame ℝ) : Frame ℝ where
  columns := df.columns ++ ["intercept"]
  numRows := df.numRows
  val := fun c r => if c = "intercept" then 1 else df.val c r

/-- **C68** (intercept). When the specification has the variable `intercept` and the prediction table has no
such column, `predict` is the prediction on the table with a column of ones of that name added; in all other
cases it is the prediction on the table itself. -/
theorem predict_intercept_column (env : Env ℝ) (m : ChoiceModel ℝ) (stored : ParamArrays)
    (df : Frame ℝ) (pl : Option ParamArrays) (rl : Bool) (cc : Option String) :
    ("intercept" ∈ m.args.specification.map Prod.fst → "intercept" ∉ df.columns →
      HEq (predict env m stored df pl rl cc) (predictFrame env m stored (withOnes df) pl rl cc)) ∧
    ("intercept" ∉ m.args.specification.map Prod.fst ∨ "intercept" ∈ df.columns →
      HEq (predict env m stored df pl rl cc) (predictFrame env m stored df pl rl cc)) := by
  constructor
  · intro h1 h2
    have e : addIntercept m.args.specification df = withOnes df := by
      rw [addIntercept, if_pos ⟨h1, h2⟩]; rfl
    unfold predict
    rw [e]
  · intro h
    have e : addIntercept m.args.specification df = df := by
      rw [addIntercept, if_neg]
      rintro ⟨h1, h2⟩
      rcases h with h | h
      · exact h h1
      · exact h2 h
    unfold predict
    rw [e]

/-! ## C76: parameter lists are checked against the model -/

/-- **C76**. Sizes of a parameter list that `predict` accepts: one index coefficient per design column of the
estimation, one outside intercept, shape and nest coefficient per name the model has for them. -/
theorem predict_param_list_sizes {env : Env ℝ} {m : ChoiceModel ℝ} {stored p : ParamArrays}
    {df : Frame ℝ} {rl : Bool} {cc : Option String} {res}
    (h : predictFrame env m stored df (some p) rl cc = .ok res) :
    p.index.length = m.indVarNames.length ∧
    (∀ x ∈ p.intercepts, x.length = (m.args.interceptNames.getD []).length) ∧
    (∀ x ∈ p.shapes, x.length = (m.args.shapeNames.getD []).length) ∧
    (∀ x ∈ p.nests, x.length = (m.args.nestSpec.getD []).length) := by
  have hchk : checkParamListValidity m p = .ok () := by
    have h1 := (predictFrame_ok.1 h).1
    unfold predictChecks at h1
    cases h2 : checkParamListValidity m p with
    | ok u => rfl
    | error e =>
      cases h3 : ensureColumnsInDataframe [m.args.altIdCol] df <;>
      cases h4 : ensureColumnsInDataframe [m.args.obsIdCol] df <;>
      cases h5 : m.args.mixingIdCol <;> simp [h2, h3, h4, h5, bind, Except.bind] at h1
      split at h1 <;> cases h1
  have hrow : ∀ (a : Option (List ℝ)) (n : ℕ), checkNumRows a n = .ok () → ∀ x ∈ a, x.length = n := by
    intro a n ha x hx
    cases hx
    by_contra hne
    simp [checkNumRows, hne] at ha
  have hlen : ∀ {α : Type} (o : Option (List α)),
      nameCount o = (o.getD []).length := by
    intro α o; cases o <;> rfl
  unfold checkParamListValidity at hchk
  rw [hlen, hlen, hlen] at hchk
  cases h1 : checkNumRows (some p.index) m.indVarNames.length with
  | error e => simp [h1, bind, Except.bind] at hchk
  | ok u =>
  cases h2 : checkNumRows p.intercepts (m.args.interceptNames.getD []).length with
  | error e => simp [h1, h2, bind, Except.bind] at hchk
  | ok u =>
  cases h3 : checkNumRows p.shapes (m.args.shapeNames.getD []).length with
  | error e => simp [h1, h2, h3, bind, Except.bind] at hchk
  | ok u =>
  simp only [h1, h2, h3, bind, Except.bind] at hchk
  exact ⟨hrow _ _ h1 _ rfl, hrow _ _ h2, hrow _ _ h3, hrow _ _ hchk⟩

/-- **C76** (disagreement). A model with outside intercepts but without names for them (the default) refuses
every parameter list that has any intercept, although the list is as documented. -/
theorem predict_unnamed_intercepts {env : Env ℝ} {m : ChoiceModel ℝ} {stored p : ParamArrays}
    {df : Frame ℝ} {rl : Bool} {cc : Option String} (hn : m.args.interceptNames = none) {x : List ℝ}
    (hx : p.intercepts = some x) (hne : x ≠ []) :
    ∃ e, predictFrame env m stored df (some p) rl cc = .error e := by
  cases h : predictFrame env m stored df (some p) rl cc with
  | error e => exact ⟨e, rfl⟩
  | ok res =>
    have := (predict_param_list_sizes h).2.1 x hx
    rw [hn] at this
    exact absurd (List.length_eq_zero_iff.1 this) hne

/-- The same model predicts with its stored parameters, which have such an intercept. -/
example (env : Env ℝ) : exClog.args.interceptNames = none ∧ exStored.intercepts = some [5] ∧
    (∃ res, predictFrame env exClog exStored (exTable 1 2) none true none = .ok res) ∧
    ∃ e, predictFrame env exClog exStored (exTable 1 2) (some exStored) true none = .error e :=
  ⟨rfl, rfl, ⟨_, exClog_predicts env 1 2 (by norm_num)⟩,
    predict_unnamed_intercepts (p := exStored) rfl rfl (by simp)⟩

end Pylogit
