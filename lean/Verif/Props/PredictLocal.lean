import Verif.Spec.PredictLocal
import Verif.Props.PredictNested

/-! # C93: the prediction for an observation does not depend on the rest of the table -/

open Finset Matrix

set_option linter.unusedSectionVars false

namespace Pylogit

open Spec

section
variable {R R' : Type} (e : R → R')

theorem mappingDot_local {n : ℕ} (M' : Matrix R' (Fin n) ℝ) (x : List ℝ) :
    mappingDot (M'.submatrix e id) x = (mappingDot M' x).map (· ∘ e) := by
  unfold mappingDot
  split_ifs
  · rfl
  · simp only [Except.map, Except.ok.injEq]
    funext r
    simp [mulVec, dotProduct]

theorem interceptTerm_local (cls : ModelType) {n : ℕ} (M' : Matrix R' (Fin n) ℝ) (ref : PyRef)
    (ip : Option (List ℝ)) :
    interceptTerm cls (M'.submatrix e id) ref ip = (interceptTerm cls M' ref ip).map (· ∘ e) := by
  have key : ∀ (ref : PyRef) (a : List ℝ), (do
      let idxs ← removeRef (if cls = .scobit then a.length + 1 else n) ref
      let all ← scatter n idxs a
      mappingDot (M'.submatrix e id) all) = (do
      let idxs ← removeRef (if cls = .scobit then a.length + 1 else n) ref
      let all ← scatter n idxs a
      mappingDot M' all : Except Err (R' → ℝ)).map (· ∘ e) := by
    intro ref a
    cases h1 : removeRef (if cls = .scobit then a.length + 1 else n) ref with
    | error x => rfl
    | ok idxs =>
      simp only [bind, Except.bind]
      cases h2 : scatter n idxs a with
      | error x => rfl
      | ok all => exact mappingDot_local e M' all
  cases ref with
  | none => rfl
  | int z => cases ip with
    | none => rfl
    | some a => exact key _ a
  | _ =>
    cases ip with
    | none => rfl
    | some a => exact key _ a

theorem shapeTerm_local (cls : ModelType) {n : ℕ} (M' : Matrix R' (Fin n) ℝ) (ref : PyRef)
    (sh : Option (List ℝ)) :
    shapeTerm cls (M'.submatrix e id) ref sh = (shapeTerm cls M' ref sh).map (· ∘ e) := by
  unfold shapeTerm
  cases sh with
  | none => rfl
  | some s =>
    simp only
    split_ifs
    · cases h : etaToC ref s with
      | error x => rfl
      | ok c => exact mappingDot_local e M' c
    · exact mappingDot_local e M' _

theorem predictTransform_local (cls : ModelType) {n : ℕ} (M' : Matrix R' (Fin n) ℝ) (ir sr : PyRef)
    (p : ParamArrays) (v : R' → ℝ) :
    predictTransform cls (M'.submatrix e id) ir sr p (v ∘ e) =
      (predictTransform cls M' ir sr p v).map (· ∘ e) := by
  cases cls
  all_goals
    simp only [predictTransform, interceptTerm_local e, shapeTerm_local e]
    try rfl
  all_goals
    first
    | (cases interceptTerm .cloglog M' ir p.intercepts <;> rfl)
    | (cases interceptTerm .scobit M' ir p.intercepts <;>
        cases shapeTerm .scobit M' sr p.shapes <;> rfl)
    | (cases interceptTerm .uneven M' ir p.intercepts <;>
        cases shapeTerm .uneven M' sr p.shapes <;> rfl)
    | (cases interceptTerm .asym M' ir p.intercepts <;>
        cases shapeTerm .asym M' sr p.shapes <;> rfl)

theorem designDot_local (cols : List (R' → ℝ)) (b : List ℝ) :
    designDot (cols.map (· ∘ e)) b = (designDot cols b).map (· ∘ e) := by
  unfold designDot
  rw [List.length_map]
  split_ifs
  · rfl
  · simp only [Except.map, Except.ok.injEq]
    funext r
    rw [List.zip_map_left, List.map_map]
    rfl

end

section
variable {df df' : Frame ℝ} {e : Fin df.numRows → Fin df'.numRows}

theorem groupColumn_local (fmt : ℝ → String) (fmtList : List (PyVal ℝ) → String) (altCol var : String)
    (hc : ∀ c r, df.val c r = df'.val c (e r)) (g : PyVal ℝ) :
    groupColumn fmt fmtList df altCol var g =
      (groupColumn fmt fmtList df' altCol var g).map fun c => (c.1 ∘ e, c.2) := by
  cases g <;> simp [groupColumn, Except.map, hc, Function.comp_def]

theorem mapM_local {α β γ : Type} (f : α → Except Err β) (g : α → Except Err γ) (t : γ → β)
    (h : ∀ a, f a = (g a).map t) (l : List α) : l.mapM f = (l.mapM g).map (List.map t) := by
  induction l with
  | nil => rfl
  | cons a l ih =>
    rw [List.mapM_cons, List.mapM_cons, h a, ih]
    cases g a with
    | error x => rfl
    | ok b => cases l.mapM g <;> rfl

theorem variableColumns_local (fmt : ℝ → String) (fmtList : List (PyVal ℝ) → String) (altCol var : String)
    (hc : ∀ c r, df.val c r = df'.val c (e r)) (alts : List ℝ) (s : PyVal ℝ) :
    variableColumns fmt fmtList df altCol alts var s =
      (variableColumns fmt fmtList df' altCol alts var s).map (List.map fun c => (c.1 ∘ e, c.2)) := by
  unfold variableColumns
  split_ifs
  · simp only [Except.map, List.map_cons, List.map_nil]
    congr 3
    funext r
    exact hc _ _
  · simp only [Except.map, List.map_map]
    congr 2
    funext a
    simp only [Function.comp_def, hc]
  · cases s with
    | list gs => exact mapM_local _ _ _ (groupColumn_local fmt fmtList altCol var hc) gs
    | _ => rfl

theorem designColumns_local (fmt : ℝ → String) (fmtList : List (PyVal ℝ) → String) (altCol : String)
    (hc : ∀ c r, df.val c r = df'.val c (e r)) (alts : List ℝ) (s : List (String × PyVal ℝ)) :
    designColumns fmt fmtList df altCol alts s =
      (designColumns fmt fmtList df' altCol alts s).map (List.map fun c => (c.1 ∘ e, c.2)) := by
  induction s with
  | nil => rfl
  | cons kv rest ih =>
    simp only [designColumns, ih, variableColumns_local fmt fmtList altCol kv.1 hc alts kv.2]
    cases variableColumns fmt fmtList df' altCol alts kv.1 kv.2 with
    | error x => rfl
    | ok here =>
      cases designColumns fmt fmtList df' altCol alts rest with
      | error x => rfl
      | ok later => simp [bind, Except.bind, Except.map]

theorem alts_local {altCol : String} (h : SameAlternatives altCol df df') :
    npSort (npUnique (df.colList altCol)) = npSort (npUnique (df'.colList altCol)) := by
  refine altsOf_eq ⟨?_, fun a => ?_⟩
  · rw [npSort_npUnique]; exact npUnique_strict _
  · rw [npSort_npUnique, mem_npUnique, Frame.colList, List.mem_ofFn]
    exact (h a).symm

theorem ensureColumns_local (hcol : ∀ c, c ∈ df.columns ↔ c ∈ df'.columns) (cols : List String) :
    ensureColumnsInDataframe cols df = ensureColumnsInDataframe cols df' := by
  simp only [ensureColumnsInDataframe, hcol]

theorem createDesignMatrix_local (fmt : ℝ → String) (fmtList : List (PyVal ℝ) → String) (altCol : String)
    (hcol : ∀ c, c ∈ df.columns ↔ c ∈ df'.columns) (hc : ∀ c r, df.val c r = df'.val c (e r))
    (ha : SameAlternatives altCol df df') (s : List (String × PyVal ℝ))
    (names : Option (List (String × PyVal ℝ))) :
    createDesignMatrix fmt fmtList df s altCol names =
      (createDesignMatrix fmt fmtList df' s altCol names).map fun d => (d.1.map (· ∘ e), d.2) := by
  unfold createDesignMatrix
  rw [alts_local ha, ensureColumns_local hcol]
  simp only [hcol]
  split_ifs with h1
  swap
  · rfl
  cases ensureColumnsInDataframe (s.map Prod.fst) df' with
  | error x => rfl
  | ok u =>
  simp only [bind, Except.bind]
  cases checkSpecDict (npSort (npUnique (df'.colList altCol))) s with
  | error x => rfl
  | ok u =>
  simp only [designColumns_local fmt fmtList altCol hc]
  cases names with
  | none =>
    cases hd : designColumns fmt fmtList df' altCol (npSort (npUnique (df'.colList altCol))) s with
    | error x => rfl
    | ok cols => cases cols <;> simp [Except.map]
  | some ns =>
    simp only
    cases checkNameDict ns s (npSort (npUnique (df'.colList altCol))).length with
    | error x => rfl
    | ok u =>
    cases hd : designColumns fmt fmtList df' altCol (npSort (npUnique (df'.colList altCol))) s with
    | error x => rfl
    | ok cols => cases cols <;> cases flattenNames ns <;> simp [Except.map]

theorem predictChecks_local {W : Type} {m : ChoiceModel ℝ}
    (hcol : ∀ c, c ∈ df.columns ↔ c ∈ df'.columns) (pl : Option (ParamArraysOf W)) (rl : Bool)
    (cc : Option String) : predictChecks m df pl rl cc = predictChecks m df' pl rl cc := by
  unfold predictChecks
  simp only [ensureColumns_local hcol]

/-- The transformed utilities of the rows of a part. -/
theorem transform_local {altCol : String} (hc : ∀ c r, df.val c r = df'.val c (e r))
    (ha : SameAlternatives altCol df df') (cls : ModelType) (ir sr : PyRef) (p : ParamArrays)
    (v : Fin df'.numRows → ℝ) :
    predictTransform cls (df.rowsToAlts altCol) ir sr p (v ∘ e) =
      (predictTransform cls (df'.rowsToAlts altCol) ir sr p v).map (· ∘ e) := by
  have key : ∀ {n n' : ℕ} (hn : n = n') (M : Matrix (Fin df.numRows) (Fin n) ℝ)
      (M' : Matrix (Fin df'.numRows) (Fin n') ℝ), (∀ r j, M r j = M' (e r) (Fin.cast hn j)) →
      predictTransform cls M ir sr p (v ∘ e) = (predictTransform cls M' ir sr p v).map (· ∘ e) := by
    intro n n' hn M M' h
    subst hn
    have : M = M'.submatrix e id := by ext r j; exact h r j
    rw [this, predictTransform_local]
  have e1 := alts_local ha
  refine key (by rw [e1]) _ _ fun r j => ?_
  rw [Frame.rowsToAlts_apply, Frame.rowsToAlts_apply, hc]
  congr 2
  simp [e1]

/-- The rows of an observation, in both tables. -/
theorem sum_rows_local {obsCol : String} (hp : PartOf obsCol df df' e) (r : Fin df.numRows)
    (g : Fin df'.numRows → ℝ) :
    ∑ s with df.val obsCol s = df.val obsCol r, g (e s) =
      ∑ s with df'.val obsCol s = df.val obsCol r, g s := by
  refine Finset.sum_bij (fun s _ => e s) ?_ ?_ ?_ ?_
  · intro s hs
    simp only [mem_filter, mem_univ, true_and] at hs ⊢
    rw [← hp.cells]; exact hs
  · intro a _ b _ hab; exact hp.once hab
  · intro s hs
    simp only [mem_filter, mem_univ, true_and] at hs
    obtain ⟨t, rfl⟩ := hp.whole r s hs
    refine ⟨t, ?_, rfl⟩
    simp only [mem_filter, mem_univ, true_and]
    rw [hp.cells]; exact hs
  · intros; rfl

theorem clippedLogit_local {obsCol : String} (hp : PartOf obsCol df df' e) (h : Fin df'.numRows → ℝ)
    (r : Fin df.numRows) :
    clippedLogit (df.val obsCol) (h ∘ e) r = clippedLogit (df'.val obsCol) h (e r) := by
  simp only [clippedLogit, logitProb, rowsOf, Function.comp]
  rw [sum_rows_local hp r fun s => Real.exp (clip700 (h s)), hp.cells obsCol r]

end

theorem chosenRows_apply (df : Frame ℝ) (obsCol : String) (y P : Fin df.numRows → ℝ)
    (o : Fin (originalOrderUniqueIds (df.colList obsCol)).length) :
    ((Matrix.of fun r o => df.rowsToObs obsCol r o * y r)ᵀ *ᵥ P) o =
      ∑ r with df.val obsCol r = (originalOrderUniqueIds (df.colList obsCol)).get o, y r * P r := by
  simp only [mulVec, dotProduct, transpose_apply, Matrix.of_apply, Frame.rowsToObs_apply]
  rw [Finset.sum_filter]
  refine Finset.sum_congr rfl fun r _ => ?_
  split_ifs <;> simp

theorem chosen_local {df df' : Frame ℝ} {e : Fin df.numRows → Fin df'.numRows} {obsCol : String}
    (hp : PartOf obsCol df df' e) (c : String) {P : Fin df.numRows → ℝ} {P' : Fin df'.numRows → ℝ}
    (hP : ∀ r, P r = P' (e r)) {o o'} (ho : (originalOrderUniqueIds (df.colList obsCol)).get o =
      (originalOrderUniqueIds (df'.colList obsCol)).get o') :
    (∑ r with df.val obsCol r = (originalOrderUniqueIds (df.colList obsCol)).get o, df.val c r * P r) =
      ∑ r with df'.val obsCol r = (originalOrderUniqueIds (df'.colList obsCol)).get o',
        df'.val c r * P' r := by
  obtain ⟨r, hr⟩ : ∃ r, df.val obsCol r = (originalOrderUniqueIds (df.colList obsCol)).get o := by
    have : (originalOrderUniqueIds (df.colList obsCol)).get o ∈ df.colList obsCol :=
      mem_originalOrder.1 (List.get_mem _ _)
    simpa only [Frame.colList, List.mem_ofFn] using this
  rw [← ho, ← hr, ← sum_rows_local hp r fun s => df'.val c s * P' s]
  refine Finset.sum_congr rfl fun s _ => ?_
  rw [hP, hp.cells c s]

/-- **C93**, for a table that has the intercept column if it needs one. -/
theorem predictFrame_local (env : Env ℝ) (m : ChoiceModel ℝ) (stored : ParamArrays) {df df' : Frame ℝ}
    {e : Fin df.numRows → Fin df'.numRows} (hp : PartOf m.args.obsIdCol df df' e)
    (ha : SameAlternatives m.args.altIdCol df df') (pl : Option ParamArrays) (rl : Bool)
    (cc : Option String) :
    AgreeOn m.args.obsIdCol e (predictFrame env m stored df pl rl cc)
      (predictFrame env m stored df' pl rl cc) := by
  unfold predictFrame
  rw [predictChecks_local hp.columns, createDesignMatrix_local env.fmt env.fmtList m.args.altIdCol
    hp.columns hp.cells ha]
  cases predictChecks m df' pl rl cc with
  | error x => exact Or.inl ⟨x, rfl, rfl⟩
  | ok u =>
  cases createDesignMatrix env.fmt env.fmtList df' m.args.specification m.args.altIdCol m.args.names with
  | error x => exact Or.inl ⟨x, rfl, rfl⟩
  | ok d =>
  simp only [bind, Except.bind, Except.map]
  by_cases hcc : ∀ c ∈ cc, c ∈ df'.columns
  swap
  · cases cc with
    | none => simp at hcc
    | some c =>
      have h' : c ∉ df'.columns := by simpa using hcc
      have h : c ∉ df.columns := by rwa [hp.columns]
      exact Or.inl ⟨.keyError, by simp [choiceArray, h], by simp [choiceArray, h']⟩
  rw [choiceArray_ok.2 ⟨hcc, rfl⟩, choiceArray_ok.2 ⟨fun c hc => (hp.columns c).2 (hcc c hc), rfl⟩]
  simp only [designDot_local]
  cases designDot d.1 (pl.getD stored).index with
  | error x => exact Or.inl ⟨x, rfl, rfl⟩
  | ok v =>
  simp only [Except.map, transform_local hp.cells ha]
  cases predictTransform m.cls (df'.rowsToAlts m.args.altIdCol) m.args.interceptRefPos m.args.shapeRefPos
      (pl.getD stored) v with
  | error x => exact Or.inl ⟨x, rfl, rfl⟩
  | ok h =>
  refine Or.inr ⟨_, _, rfl, rfl, ?_⟩
  simp only [probParts_eq]
  have hchosen : ∀ c o o', (originalOrderUniqueIds (df.colList m.args.obsIdCol)).get o =
      (originalOrderUniqueIds (df'.colList m.args.obsIdCol)).get o' →
      (∑ r with df.val m.args.obsIdCol r = (originalOrderUniqueIds (df.colList m.args.obsIdCol)).get o,
        df.val c r * clippedLogit (df.val m.args.obsIdCol) (h ∘ e) r) =
      ∑ r with df'.val m.args.obsIdCol r = (originalOrderUniqueIds (df'.colList m.args.obsIdCol)).get o',
        df'.val c r * clippedLogit (df'.val m.args.obsIdCol) h r :=
    fun c o o' ho => chosen_local hp c (clippedLogit_local hp h) ho
  cases cc with
  | none =>
    refine ⟨by simp [predictedParts, longPart], by simp [predictedParts, chosenPart], ?_, ?_⟩
    · simp only [predictedParts, longPart, Option.some.injEq]
      rintro l l' rfl rfl r
      exact clippedLogit_local hp h r
    · simp [predictedParts, chosenPart]
  | some c =>
    cases rl with
    | true =>
      refine ⟨by simp [predictedParts, longPart], by simp [predictedParts, chosenPart], ?_, ?_⟩
      · simp only [predictedParts, longPart, Option.some.injEq]
        rintro l l' rfl rfl r
        exact clippedLogit_local hp h r
      · simp only [predictedParts, chosenPart, Option.some.injEq]
        rintro l l' rfl rfl o o' ho
        exact hchosen c o o' ho
    | false =>
      refine ⟨by simp [predictedParts, longPart], by simp [predictedParts, chosenPart], ?_, ?_⟩
      · simp [predictedParts, longPart]
      · simp only [predictedParts, chosenPart, Option.some.injEq]
        rintro l l' rfl rfl o o' ho
        exact hchosen c o o' ho

/-! ## The whole of `predict` -/

theorem addIntercept_numRows (spec : List (String × PyVal ℝ)) (df : Frame ℝ) :
    (addIntercept spec df).numRows = df.numRows := by
  unfold addIntercept
  split_ifs <;> rfl

theorem addIntercept_val (spec : List (String × PyVal ℝ)) (df : Frame ℝ) (c : String) (r) :
    (addIntercept spec df).val c r =
      if ("intercept" ∈ spec.map Prod.fst ∧ "intercept" ∉ df.columns) ∧ c = "intercept" then 1
      else df.val c (Fin.cast (addIntercept_numRows spec df) r) := by
  by_cases h : "intercept" ∈ spec.map Prod.fst ∧ "intercept" ∉ df.columns
  · have key : ∀ g : Frame ℝ, ∀ hg : g = withOnes df, ∀ (hn : g.numRows = df.numRows) (r : Fin g.numRows),
        g.val c r = if c = "intercept" then 1 else df.val c (Fin.cast hn r) := by
      rintro g rfl hn r
      rfl
    have e : addIntercept spec df = withOnes df := by rw [addIntercept, if_pos h]; rfl
    rw [key _ e (addIntercept_numRows spec df) r]
    simp only [h, true_and, not_false_eq_true]
  · have key : ∀ g : Frame ℝ, ∀ hg : g = df, ∀ (hn : g.numRows = df.numRows) (r : Fin g.numRows),
        g.val c r = df.val c (Fin.cast hn r) := by
      rintro g rfl hn r
      rfl
    have e : addIntercept spec df = df := by rw [addIntercept, if_neg h]
    rw [key _ e (addIntercept_numRows spec df) r, if_neg fun h' => h h'.1]

/-- The rows of the table with the intercept column. -/
def Spec.rowsWithIntercept (spec : List (String × PyVal ℝ)) {df df' : Frame ℝ}
    (e : Fin df.numRows → Fin df'.numRows) :
    Fin (addIntercept spec df).numRows → Fin (addIntercept spec df').numRows :=
  fun r => Fin.cast (addIntercept_numRows spec df').symm (e (Fin.cast (addIntercept_numRows spec df) r))

theorem partOf_addIntercept (spec : List (String × PyVal ℝ)) {obsCol : String} {df df' : Frame ℝ}
    {e : Fin df.numRows → Fin df'.numRows} (hp : PartOf obsCol df df' e) (ho : obsCol ∈ df.columns) :
    PartOf obsCol (addIntercept spec df) (addIntercept spec df') (rowsWithIntercept spec e) where
  columns c := by
    unfold addIntercept
    simp only [hp.columns]
    split_ifs
    · simp [hp.columns]
    · exact hp.columns c
  once a b h := by
    simp only [rowsWithIntercept] at h
    have h1 := hp.once ((finCongr (addIntercept_numRows spec df').symm).injective h)
    exact (finCongr (addIntercept_numRows spec df)).injective h1
  cells c r := by
    simp only [addIntercept_val, hp.columns, rowsWithIntercept, hp.cells]
    rfl
  whole r r' h := by
    have h1 : ¬ (("intercept" ∈ spec.map Prod.fst ∧ "intercept" ∉ df.columns) ∧ obsCol = "intercept") := by
      rintro ⟨⟨-, h1⟩, rfl⟩; exact h1 ho
    have h2 : ¬ (("intercept" ∈ spec.map Prod.fst ∧ "intercept" ∉ df'.columns) ∧ obsCol = "intercept") := by
      rwa [← hp.columns]
    rw [addIntercept_val, addIntercept_val, if_neg h1, if_neg h2] at h
    obtain ⟨s, hs⟩ := hp.whole _ _ h
    refine ⟨Fin.cast (addIntercept_numRows spec df).symm s, ?_⟩
    simp only [rowsWithIntercept, Fin.cast_cast, Fin.cast_eq_self, hs]

theorem sameAlternatives_addIntercept (spec : List (String × PyVal ℝ)) {altCol : String} {df df' : Frame ℝ}
    (hcol : "intercept" ∈ df.columns ↔ "intercept" ∈ df'.columns) (h : SameAlternatives altCol df df')
    (hmem : altCol ∈ df.columns) :
    SameAlternatives altCol (addIntercept spec df) (addIntercept spec df') := by
  have h1 : ¬ (("intercept" ∈ spec.map Prod.fst ∧ "intercept" ∉ df.columns) ∧ altCol = "intercept") := by
    rintro ⟨⟨-, h1⟩, rfl⟩; exact h1 hmem
  have h2 : ¬ (("intercept" ∈ spec.map Prod.fst ∧ "intercept" ∉ df'.columns) ∧ altCol = "intercept") := by
    rwa [← hcol]
  intro a
  simp only [addIntercept_val, if_neg h1, if_neg h2]
  constructor
  · rintro ⟨r, hr⟩
    obtain ⟨r', hr'⟩ := (h a).1 ⟨_, hr⟩
    exact ⟨Fin.cast (addIntercept_numRows spec df').symm r', hr'⟩
  · rintro ⟨r, hr⟩
    obtain ⟨r', hr'⟩ := (h a).2 ⟨_, hr⟩
    exact ⟨Fin.cast (addIntercept_numRows spec df).symm r', hr'⟩

/-- **C93** (logit-type models). Let a table hold some of the observations of another one, in any order, and
let both have the same alternatives.  Then `predict` fails on one exactly when it fails on the other, with the
same error, and otherwise returns the same parts; the same rows get the same probabilities and the same
observations the same probabilities of the choices made. -/
theorem predict_local_partial (env : Env ℝ) (m : ChoiceModel ℝ) (stored : ParamArrays) {df df' : Frame ℝ}
    {e : Fin df.numRows → Fin df'.numRows} (hp : PartOf m.args.obsIdCol df df' e)
    (ha : SameAlternatives m.args.altIdCol df df') (hobs : m.args.obsIdCol ∈ df.columns)
    (halt : m.args.altIdCol ∈ df.columns) (pl : Option ParamArrays) (rl : Bool) (cc : Option String) :
    AgreeOn m.args.obsIdCol (rowsWithIntercept m.args.specification e) (predict env m stored df pl rl cc)
      (predict env m stored df' pl rl cc) :=
  predictFrame_local env m stored (partOf_addIntercept _ hp hobs)
    (sameAlternatives_addIntercept _ (hp.columns _) ha halt) pl rl cc

/-! ## The nested logit -/

section
variable {R R' O N : Type} [Fintype R] [Fintype R'] [Fintype N] [DecidableEq O] [DecidableEq N]

theorem nestedProb_local {e : R → R'} (he : Function.Injective e) {f : R → O} {f' : R' → O}
    (hf : ∀ r, f r = f' (e r)) (hw : ∀ r r', f' r' = f r → ∃ s, e s = r') {g : R → N} {g' : R' → N}
    (hg : ∀ r, g r = g' (e r)) (V : R' → ℝ) (lam : N → ℝ) (r : R) :
    nestedProb f g (V ∘ e) lam r = nestedProb f' g' V lam (e r) := by
  have hrows : ∀ m, (nestRows f g (f r) m).map ⟨e, he⟩ = nestRows f' g' (f r) m := by
    intro m
    ext s
    simp only [nestRows, mem_map, mem_filter, mem_univ, true_and, Function.Embedding.coeFn_mk]
    constructor
    · rintro ⟨t, ⟨h1, h2⟩, rfl⟩
      rw [← hf, ← hg]; exact ⟨h1, h2⟩
    · rintro ⟨h1, h2⟩
      obtain ⟨t, rfl⟩ := hw r s h1
      rw [← hf] at h1
      rw [← hg] at h2
      exact ⟨t, ⟨h1, h2⟩, rfl⟩
  have hsum : ∀ m, nestSum f g (V ∘ e) lam (f r) m = nestSum f' g' V lam (f r) m := by
    intro m
    simp only [nestSum, ← hrows m, sum_map, Function.Embedding.coeFn_mk, Function.comp]
  have hav : availNests f g (f r) = availNests f' g' (f r) := by
    ext m
    simp only [availNests, mem_filter, mem_univ, true_and, ← hrows m, map_nonempty]
  simp only [nestedProb, nestProb, condProb, ← hf, ← hg, hsum, hav, Function.comp]

end

/-- The nested probabilities, by observation id, for a design given by its columns. -/
theorem nestedLong_cols {df : Frame ℝ} {obsCol : String} {nests index : List ℝ} {J : ℕ}
    {cols : List (Fin df.numRows → ℝ)} {g : Fin df.numRows → Fin J}
    (hl : cols.length = index.length) (r : Fin df.numRows) :
    nestedLongProbs (naturalizeNestCoefs fun j : Fin J => nests.getD j 0)
        (fun k : Fin cols.length => index.getD k 0)
        (Matrix.of fun r (k : Fin cols.length) => cols[k] r) (df.rowsToObs obsCol)
        (Matrix.of fun r j => if g r = j then 1 else 0) r =
      nestedProb (df.val obsCol) g (fun r => ((cols.zip index).map fun p => p.1 r * p.2).sum)
        (naturalizeNestCoefs fun j : Fin J => nests.getD j 0) r := by
  obtain ⟨f, hf, hiff⟩ := df.rowsToObs_indicates obsCol
  rw [nestedLongProbs_eq hf (g := g) (fun r j => by rfl) (fun n => naturalize_pos _ n)]
  have hfc : ∀ r s, f r = f s ↔ df.val obsCol r = df.val obsCol s := by
    intro r s
    rw [hiff, ← (hiff s (f s)).1 rfl]
  rw [nestedProb_congr hfc]
  congr 2
  funext r
  rw [zip_sum cols _ hl fun c => c r]
  rfl

section
variable {R O K N : Type} [Fintype R] [Fintype O] [Fintype K] [Fintype N] (lam : N → ℝ) (b : K → ℝ)
    (X : Matrix R K ℝ) (M : Matrix R O ℝ) (Q : Matrix R N ℝ)

theorem calcNestedProbs_long (C : Option (Matrix R O ℝ)) :
    calcNestedProbs lam b X M Q C "long_probs" = .ok (.long (nestedLongProbs lam b X M Q)) := by
  simp [calcNestedProbs]

theorem calcNestedProbs_chosen (C : Matrix R O ℝ) :
    calcNestedProbs lam b X M Q (some C) "chosen_probs" =
      .ok (.chosen (Cᵀ *ᵥ nestedLongProbs lam b X M Q)) := by
  simp [calcNestedProbs, nestedChosenProbs]

end

/-- **C93** (nested logit). The same for the nested logit, when nest names are distinct and every alternative
is listed in exactly one nest, once. -/
theorem predict_nested_local (env : Env ℝ) (m : ChoiceModel ℝ) {nestSpec : List (String × List ℝ)}
    (stored : ParamArrays) {df df' : Frame ℝ} {e : Fin df.numRows → Fin df'.numRows}
    (hp : PartOf m.args.obsIdCol df df' e) (ha : SameAlternatives m.args.altIdCol df df')
    (hk : (nestSpec.map Prod.fst).Nodup) (hone : ∀ r, InOneNest nestSpec (df'.val m.args.altIdCol r))
    (pl : Option ParamArrays) (rl : Bool) (cc : Option String) :
    NestedAgreeOn m.args.obsIdCol e (predictNestedFrame env m nestSpec stored df pl rl cc)
      (predictNestedFrame env m nestSpec stored df' pl rl cc) := by
  have halts : ∀ d : Frame ℝ, AltsOf d m.args.altIdCol (npSort (npUnique (d.colList m.args.altIdCol))) := by
    intro d
    refine ⟨by rw [npSort_npUnique]; exact npUnique_strict _, fun a => ?_⟩
    rw [npSort_npUnique, mem_npUnique, Frame.colList, List.mem_ofFn]
  have hone' : ∀ a ∈ npSort (npUnique (df'.colList m.args.altIdCol)), InOneNest nestSpec a := by
    intro a h
    obtain ⟨r, rfl⟩ := ((halts df').mem a).1 h
    exact hone r
  obtain ⟨g', hg', hrtn'⟩ := frame_rowsToNests (halts df') hk hone'
  obtain ⟨g, hg, hrtn⟩ := frame_rowsToNests (halts df) hk (by rw [alts_local ha]; exact hone')
  have hgg : ∀ r, g r = g' (e r) := by
    intro r
    obtain ⟨j, n, hj, hn, -, hu⟩ := nestIdOf_unique hk (hone (e r))
    have h1 := hu (g r) _ (List.getElem?_eq_getElem (g r).2) (by rw [← hp.cells]; exact hg r)
    have h2 := hu (g' (e r)) _ (List.getElem?_eq_getElem (g' (e r)).2) (hg' (e r))
    exact Fin.ext (h1.trans h2.symm)
  unfold predictNestedFrame
  rw [predictChecks_local hp.columns, createDesignMatrix_local env.fmt env.fmtList m.args.altIdCol
    hp.columns hp.cells ha, hrtn, hrtn']
  cases predictChecks m df' pl rl cc with
  | error x => exact Or.inl ⟨x, rfl, rfl⟩
  | ok u =>
  cases createDesignMatrix env.fmt env.fmtList df' m.args.specification m.args.altIdCol m.args.names with
  | error x => exact Or.inl ⟨x, rfl, rfl⟩
  | ok d =>
  simp only [bind, Except.bind, Except.map]
  by_cases hcc : ∀ c ∈ cc, c ∈ df'.columns
  swap
  · cases cc with
    | none => simp at hcc
    | some c =>
      have h' : c ∉ df'.columns := by simpa using hcc
      have h : c ∉ df.columns := by rwa [hp.columns]
      exact Or.inl ⟨.keyError, by simp [choiceArray, h], by simp [choiceArray, h']⟩
  rw [choiceArray_ok.2 ⟨hcc, rfl⟩, choiceArray_ok.2 ⟨fun c hc => (hp.columns c).2 (hcc c hc), rfl⟩]
  simp only
  cases (pl.getD stored).nests with
  | none => exact Or.inl ⟨.typeError, rfl, rfl⟩
  | some nests =>
  simp only [List.length_map]
  by_cases hl : nests.length ≠ nestSpec.length ∨ d.1.length ≠ (pl.getD stored).index.length
  · rw [if_pos hl, if_pos hl]
    exact Or.inl ⟨.valueError, rfl, rfl⟩
  rw [if_neg hl, if_neg hl]
  push Not at hl
  have hlong : ∀ r, nestedLongProbs (naturalizeNestCoefs fun j : Fin nestSpec.length => nests.getD j 0)
      (fun k : Fin (d.1.map (· ∘ e)).length => (pl.getD stored).index.getD k 0)
      (Matrix.of fun r (k : Fin (d.1.map (· ∘ e)).length) => (d.1.map (· ∘ e))[k] r)
      (df.rowsToObs m.args.obsIdCol) (Matrix.of fun r j => if g r = j then 1 else 0) r =
      nestedLongProbs (naturalizeNestCoefs fun j : Fin nestSpec.length => nests.getD j 0)
      (fun k : Fin d.1.length => (pl.getD stored).index.getD k 0)
      (Matrix.of fun r (k : Fin d.1.length) => d.1[k] r) (df'.rowsToObs m.args.obsIdCol)
      (Matrix.of fun r j => if g' r = j then 1 else 0) (e r) := by
    intro r
    rw [nestedLong_cols (by rw [List.length_map]; exact hl.2), nestedLong_cols hl.2,
      ← nestedProb_local hp.once (hp.cells m.args.obsIdCol) hp.whole hgg]
    congr 1
    funext r
    rw [List.zip_map_left, List.map_map]
    rfl
  cases rl with
  | true =>
    simp only [if_true]
    refine Or.inr ⟨_, _, calcNestedProbs_long _ _ _ _ _ _, calcNestedProbs_long _ _ _ _ _ _,
      by simp [nestedRows], by simp [nestedChoices], ?_, ?_⟩
    · simp only [nestedRows, Option.some.injEq]
      rintro l l' rfl rfl r
      exact hlong r
    · simp [nestedChoices]
  | false =>
    cases cc with
    | none => exact Or.inl ⟨.valueError, by simp [calcNestedProbs], by simp [calcNestedProbs]⟩
    | some c =>
      simp only [Bool.false_eq_true, if_false]
      refine Or.inr ⟨_, _, calcNestedProbs_chosen _ _ _ _ _ _, calcNestedProbs_chosen _ _ _ _ _ _,
        by simp [nestedRows], by simp [nestedChoices], ?_, ?_⟩
      · simp [nestedRows]
      · simp only [nestedChoices, Option.some.injEq]
        rintro l l' rfl rfl o o' ho
        rw [chosenRows_apply, chosenRows_apply]
        exact chosen_local hp c hlong ho

/-! ## When the alternatives differ, and concrete cases -/

/-- The observation of `exTable 1 2` and a second observation with alternatives `a` and `b`, which comes
first. -/
def exLarger (a b : ℝ) : Frame ℝ where
  columns := ["obs", "alt", "x"]
  numRows := 4
  val := fun c => if c = "alt" then ![a, b, 2, 1] else if c = "x" then ![3, 4, 2, 1] else ![7, 7, 1, 1]

/-- Where the rows of `exTable 1 2` are in `exLarger`. -/
def exRows : Fin 2 → Fin 4 := ![3, 2]

theorem exLarger_part (a b : ℝ) : PartOf "obs" (exTable 1 2) (exLarger a b) exRows where
  columns c := by simp [exTable, exLarger]
  once r s h := by
    change Fin 2 at r s
    have : Function.Injective exRows := by decide
    exact this h
  cells c r := by
    change Fin 2 at r
    simp only [exTable, exLarger]
    split_ifs <;> fin_cases r <;> rfl
  whole r r' h := by
    change Fin 2 at r
    change Fin 4 at r'
    fin_cases r' <;> fin_cases r <;> simp [exTable, exLarger] at h
    · exact ⟨(1 : Fin 2), rfl⟩
    · exact ⟨(1 : Fin 2), rfl⟩
    · exact ⟨(0 : Fin 2), rfl⟩
    · exact ⟨(0 : Fin 2), rfl⟩

/-- The hypotheses of `predict_local_partial` are met when the second observation is about the same
alternatives, and `predict` returns. -/
example (env : Env ℝ) : PartOf exClog.args.obsIdCol (exTable 1 2) (exLarger 1 2) exRows ∧
    SameAlternatives exClog.args.altIdCol (exTable 1 2) (exLarger 1 2) ∧
    (∃ res, predictFrame env exClog exStored (exTable 1 2) none true none = .ok res) ∧
    InOneNest [("a", [1]), ("b", [(2 : ℝ)])] 1 := by
  refine ⟨exLarger_part 1 2, fun a => ?_, ⟨_, exClog_predicts env 1 2 (by norm_num)⟩, by simp [InOneNest]⟩
  constructor
  · rintro ⟨r, rfl⟩
    exact ⟨exRows r, ((exLarger_part 1 2).cells "alt" r).symm⟩
  · rintro ⟨r, rfl⟩
    change Fin 4 at r
    fin_cases r
    · exact ⟨(0 : Fin 2), rfl⟩
    · exact ⟨(1 : Fin 2), rfl⟩
    · exact ⟨(1 : Fin 2), rfl⟩
    · exact ⟨(0 : Fin 2), rfl⟩

theorem exLarger_alts : AltsOf (exLarger 0 1) "alt" [0, 1, 2] where
  ascending := by simp
  mem x := by
    constructor
    · intro hx
      simp only [List.mem_cons, List.not_mem_nil, or_false] at hx
      rcases hx with rfl | rfl | rfl
      · exact ⟨(0 : Fin 4), rfl⟩
      · exact ⟨(1 : Fin 4), rfl⟩
      · exact ⟨(2 : Fin 4), rfl⟩
    · rintro ⟨r, rfl⟩
      change Fin 4 at r
      fin_cases r <;> simp [exLarger]

theorem exClog_larger (env : Env ℝ) : ∃ res,
    predictFrame env exClog exStored (exLarger 0 1) none true none = .ok res := by
  have hchk : predictChecks (W := ℝ) exClog (exLarger 0 1) none true none = .ok () := by
    simp [predictChecks, exClog, exLarger, ensureColumnsInDataframe, bind, Except.bind]
  have hd := design_success env.fmt env.fmtList (exLarger 0 1) [("x", .allSame)] "alt" [0, 1, 2]
    exLarger_alts (by simp [exLarger]) (by simp [exLarger]) (by simp [SpecVal.ValidFor])
    (by simp [SpecVal.columns])
  have hlen : exStored.index.length = (specColumns [0, 1, 2] [("x", .allSame)]).length := by
    simp [specColumns, SpecVal.columns, exStored]
  have hi : ∀ (n : ℕ) (M : Matrix (Fin 4) (Fin n) ℝ), n = 3 →
      ∃ a, interceptTerm .cloglog M (.int 0) (some [5]) = .ok a := by
    rintro n M rfl
    have h1 : removeRef 3 (.int 0) = .ok [1, 2] := by
      rw [removeRef]
      rw [if_pos (by decide)]
      rfl
    have h2 : scatter 3 [1, 2] [(5 : ℝ)] = .ok [0, 5, 5] := by
      simp [scatter, List.range, List.range.loop]
    exact ⟨M *ᵥ fun j => [0, 5, 5].getD j 0, by
      simp only [interceptTerm, reduceCtorEq, if_false, h1, h2, bind, Except.bind]
      rw [mappingDot, if_neg (by simp)]⟩
  obtain ⟨a, hia⟩ := hi _ ((exLarger 0 1).rowsToAlts "alt") (by rw [altsOf_eq exLarger_alts]; rfl)
  have ht : ∀ v, predictTransform .cloglog ((exLarger 0 1).rowsToAlts "alt") (.int 0) .none exStored v =
      .ok fun r => clogH (v r) + a r := by
    intro v
    have := congrArg (fun t : Except Err (Fin 4 → ℝ) => (do
      let a ← t
      .ok fun r => clogH (v r) + a r : Except Err (Fin 4 → ℝ))) hia
    exact this
  exact ⟨_, predictFrame_ok.2 ⟨hchk, by simp, _, hd, _, designDot_ok hlen, _, ht _, rfl⟩⟩

/-- The utility of a row without its intercept. -/
noncomputable def exV (x : ℝ) : ℝ := Real.log (Real.exp (Real.exp (x * (1 / 2) + 0)) - 1)

theorem exV_bounds {x : ℝ} (h0 : 0 ≤ x) (h2 : x ≤ 2) : 0 ≤ exV x ∧ exV x ≤ 3 := by
  have h1 : 1 ≤ Real.exp (x * (1 / 2) + 0) := by rw [Real.one_le_exp_iff]; linarith
  have h3 : Real.exp (x * (1 / 2) + 0) ≤ 3 := by
    have : Real.exp (x * (1 / 2) + 0) ≤ Real.exp 1 := Real.exp_le_exp.2 (by linarith)
    have := Real.exp_one_lt_d9
    linarith
  have h4 : 1 ≤ Real.exp (Real.exp (x * (1 / 2) + 0)) - 1 := by
    have := Real.add_one_le_exp (Real.exp (x * (1 / 2) + 0))
    linarith
  constructor
  · exact Real.log_nonneg h4
  · rw [exV, Real.log_le_iff_le_exp (by linarith)]
    have := Real.exp_le_exp.2 h3
    linarith

/-- **C93** (disagreement). `predict` reads the alternatives off the table.  A Clog-log model of two
alternatives has one outside intercept; adding, to a table with an observation of alternatives 1 and 2, an
observation that has alternative 0 makes that intercept apply to alternative 1 as well, and changes the
probabilities of the first observation. -/
theorem predict_depends_on_others (env : Env ℝ) : ∃ l l',
    predictFrame env exClog exStored (exTable 1 2) none true none = .ok (.long l) ∧
    predictFrame env exClog exStored (exLarger 0 1) none true none = .ok (.long l') ∧
    PartOf "obs" (exTable 1 2) (exLarger 0 1) exRows ∧ l (0 : Fin 2) () ≠ l' (3 : Fin 4) () := by
  obtain ⟨res, hres⟩ := exClog_larger env
  have hres' := hres
  have h := predict_single_intercept (s := [("x", .allSame)]) rfl rfl exLarger_alts (z := 0) (by simp) rfl
    (α := 5) rfl hres
  simp only [predictedParts] at h
  rw [h] at hres
  refine ⟨_, _, exClog_predicts env 1 2 (by norm_num), hres, exLarger_part 0 1, ?_⟩
  have hnot : ∀ x : ℝ, 0 ≤ x → x ≤ 2 → ¬ ((3.7 : ℝ) ≤ x * (1 / 2) + 0) := by
    intro x h0 h2; norm_num; linarith
  have hclip : ∀ x : ℝ, -700 ≤ x → x ≤ 700 → clip700 x = x := by
    intro x h1 h2
    rw [clip700, min_eq_left h2, max_eq_right h1]
  obtain ⟨b1, b1'⟩ := exV_bounds (x := 1) (by norm_num) (by norm_num)
  obtain ⟨b2, b2'⟩ := exV_bounds (x := 2) (by norm_num) (by norm_num)
  have hu : ∀ alts q a x, 0 ≤ x → x ≤ 2 →
      rowUtility .cloglog alts q a (x * (1 / 2) + 0) = q.icpt a + exV x := by
    intro alts q a x h0 h2
    rw [rowUtility, if_neg (hnot x h0 h2), exV]
  have hl : clippedLogit ((exTable 1 2).val "obs") (fun r =>
        rowUtility .cloglog [1, 2] ⟨fun x => if x = 2 then 5 else 0, 0⟩ ((exTable 1 2).val "alt" r)
          ((exTable 1 2).val "x" r * (1 / 2) + 0)) (0 : Fin 2) =
      Real.exp (exV 1) / (Real.exp (exV 1) + Real.exp (5 + exV 2)) := by
    have key : ∀ (f h : Fin 2 → ℝ), f = ![1, 1] → clippedLogit f h 0 =
        Real.exp (clip700 (h 0)) / (Real.exp (clip700 (h 0)) + Real.exp (clip700 (h 1))) := by
      rintro f h rfl
      have hrows : rowsOf (![1, 1] : Fin 2 → ℝ) 1 = {0, 1} := by
        ext r
        fin_cases r <;> simp [rowsOf]
      simp only [clippedLogit, logitProb, Matrix.cons_val_zero, hrows]
      rw [Finset.sum_pair (by decide)]
    have e0 : clip700 (rowUtility .cloglog [1, 2] ⟨fun x => if x = 2 then 5 else 0, 0⟩
        ((exTable 1 2).val "alt" (0 : Fin 2)) ((exTable 1 2).val "x" (0 : Fin 2) * (1 / 2) + 0)) = exV 1 := by
      have h1 : (exTable 1 2).val "x" (0 : Fin 2) = 1 := rfl
      have h2 : (exTable 1 2).val "alt" (0 : Fin 2) = 1 := rfl
      rw [h1, h2, hu _ _ _ _ (by norm_num) (by norm_num)]
      simp only [OfNat.one_ne_ofNat, if_false, zero_add]
      exact hclip _ (by linarith) (by linarith)
    have e1 : clip700 (rowUtility .cloglog [1, 2] ⟨fun x => if x = 2 then 5 else 0, 0⟩
        ((exTable 1 2).val "alt" (1 : Fin 2)) ((exTable 1 2).val "x" (1 : Fin 2) * (1 / 2) + 0)) =
        5 + exV 2 := by
      have h1 : (exTable 1 2).val "x" (1 : Fin 2) = 2 := rfl
      have h2 : (exTable 1 2).val "alt" (1 : Fin 2) = 2 := rfl
      rw [h1, h2, hu _ _ _ _ (by norm_num) (by norm_num)]
      simp only [if_true]
      exact hclip _ (by linarith) (by linarith)
    refine (key _ _ rfl).trans ?_
    rw [e0, e1]
  have hidx : ∀ r, rowIndex (exLarger 0 1) "alt" (specColumns [0, 1, 2] [("x", .allSame)]) [1 / 2] r =
      (exLarger 0 1).val "x" r * (1 / 2) + 0 := by
    intro r
    simp [rowIndex, specColumns, SpecVal.columns, ColDesc.value]
  have hl' : clippedLogit ((exLarger 0 1).val "obs") (fun r =>
        rowUtility .cloglog [0, 1, 2] ⟨fun a => if a = 0 then 0 else 5, 0⟩ ((exLarger 0 1).val "alt" r)
          (rowIndex (exLarger 0 1) "alt" (specColumns [0, 1, 2] [("x", .allSame)]) [1 / 2] r)) (3 : Fin 4) =
      Real.exp (5 + exV 1) / (Real.exp (5 + exV 1) + Real.exp (5 + exV 2)) := by
    have key : ∀ (f h : Fin 4 → ℝ), f = ![7, 7, 1, 1] → clippedLogit f h 3 =
        Real.exp (clip700 (h 3)) / (Real.exp (clip700 (h 3)) + Real.exp (clip700 (h 2))) := by
      rintro f h rfl
      have hrows : rowsOf (![7, 7, 1, 1] : Fin 4 → ℝ) 1 = {3, 2} := by
        ext r
        fin_cases r <;> simp [rowsOf]
      have h3 : (![7, 7, 1, 1] : Fin 4 → ℝ) 3 = 1 := rfl
      simp only [clippedLogit, logitProb, h3, hrows]
      rw [Finset.sum_pair (by decide)]
    have e0 : clip700 (rowUtility .cloglog [0, 1, 2] ⟨fun a => if a = 0 then 0 else 5, 0⟩
        ((exLarger 0 1).val "alt" (3 : Fin 4)) ((exLarger 0 1).val "x" (3 : Fin 4) * (1 / 2) + 0)) =
        5 + exV 1 := by
      have h1 : (exLarger 0 1).val "x" (3 : Fin 4) = 1 := rfl
      have h2 : (exLarger 0 1).val "alt" (3 : Fin 4) = 1 := rfl
      rw [h1, h2, hu _ _ _ _ (by norm_num) (by norm_num)]
      simp only [one_ne_zero, if_false]
      exact hclip _ (by linarith) (by linarith)
    have e1 : clip700 (rowUtility .cloglog [0, 1, 2] ⟨fun a => if a = 0 then 0 else 5, 0⟩
        ((exLarger 0 1).val "alt" (2 : Fin 4)) ((exLarger 0 1).val "x" (2 : Fin 4) * (1 / 2) + 0)) =
        5 + exV 2 := by
      have h1 : (exLarger 0 1).val "x" (2 : Fin 4) = 2 := rfl
      have h2 : (exLarger 0 1).val "alt" (2 : Fin 4) = 2 := rfl
      rw [h1, h2, hu _ _ _ _ (by norm_num) (by norm_num)]
      simp only [OfNat.ofNat_ne_zero, if_false]
      exact hclip _ (by linarith) (by linarith)
    simp only [hidx]
    refine (key _ _ rfl).trans ?_
    rw [e0, e1]
  intro hcontra
  have hc : Real.exp (exV 1) / (Real.exp (exV 1) + Real.exp (5 + exV 2)) =
      Real.exp (5 + exV 1) / (Real.exp (5 + exV 1) + Real.exp (5 + exV 2)) := by
    rw [← hl, ← hl']; exact hcontra
  have p1 := Real.exp_pos (exV 1)
  have p2 := Real.exp_pos (5 + exV 2)
  have p3 := Real.exp_pos (5 + exV 1)
  have hlt : Real.exp (exV 1) < Real.exp (5 + exV 1) := Real.exp_lt_exp.2 (by linarith)
  rw [div_eq_div_iff (by positivity) (by positivity)] at hc
  nlinarith

end Pylogit
