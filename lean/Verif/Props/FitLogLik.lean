import Verif.Props.Session
import Verif.Props.FitPredict
import Verif.Spec.WideFit

/-!
# The log-likelihood a fit maximises is that of the choices in the table (C107)
-/

open Matrix

namespace Pylogit

open Spec

noncomputable section

/-! ## Helper lemmas: renaming rows -/

private lemma mappingDot_rows {R R' : Type} {n : ℕ} (e : R' → R) (M : Matrix R (Fin n) ℝ) (x : List ℝ) :
    mappingDot (M.submatrix e id) x = (mappingDot M x).map (· ∘ e) := by
  unfold mappingDot
  split_ifs <;> rfl

private lemma interceptTerm_rows {R R' : Type} {n : ℕ} (e : R' → R) (cls : ModelType) (M : Matrix R (Fin n) ℝ)
    (ref : PyRef) (ip : Option (List ℝ)) :
    interceptTerm cls (M.submatrix e id) ref ip = (interceptTerm cls M ref ip).map (· ∘ e) := by
  unfold interceptTerm
  split
  · rfl
  · rfl
  · rename_i a _
    simp only [bind, Except.bind]
    cases removeRef (if cls = .scobit then a.length + 1 else n) ref with
    | error _ => rfl
    | ok idxs =>
      cases h : scatter n idxs a with
      | error _ => simp [Except.map, h]
      | ok all => simp [h, mappingDot_rows]

private lemma shapeTerm_rows {R R' : Type} {n : ℕ} (e : R' → R) (cls : ModelType) (M : Matrix R (Fin n) ℝ)
    (ref : PyRef) (s : Option (List ℝ)) :
    shapeTerm cls (M.submatrix e id) ref s = (shapeTerm cls M ref s).map (· ∘ e) := by
  unfold shapeTerm
  split
  · rfl
  · rename_i s
    split_ifs
    · simp only [bind, Except.bind]
      cases etaToC ref s with
      | error _ => rfl
      | ok c => simp [mappingDot_rows]
    · exact mappingDot_rows _ _ _

private lemma transform_rows {R R' : Type} {n : ℕ} (e : R' → R) (cls : ModelType) (M : Matrix R (Fin n) ℝ)
    (ir sr : PyRef) (p : ParamArrays) (v : R → ℝ) :
    predictTransform cls (M.submatrix e id) ir sr p (v ∘ e) =
      (predictTransform cls M ir sr p v).map (· ∘ e) := by
  unfold predictTransform
  cases cls <;> dsimp only <;> try rfl
  all_goals simp only [interceptTerm_rows, shapeTerm_rows, bind, Except.bind]
  · cases shapeTerm .asym M sr p.shapes <;> cases interceptTerm .asym M ir p.intercepts <;> rfl
  · cases interceptTerm .cloglog M ir p.intercepts <;> rfl
  · cases interceptTerm .scobit M ir p.intercepts <;> cases shapeTerm .scobit M sr p.shapes <;> rfl
  · cases shapeTerm .uneven M sr p.shapes <;> cases interceptTerm .uneven M ir p.intercepts <;> rfl

private lemma designDot_rows {R R' : Type} (e : R' → R) (cols : List (R → ℝ)) (beta : List ℝ) :
    designDot (cols.map (· ∘ e)) beta = (designDot cols beta).map (· ∘ e) := by
  unfold designDot
  rw [List.length_map]
  split_ifs
  · rfl
  · simp only [Except.map]
    congr 1
    funext r
    rw [List.zip_map_left, List.map_map]
    rfl

private lemma longProbs_rows {R R' O : Type} [Fintype R] [Fintype R'] [Fintype O] (e : R' ≃ R)
    (M : Matrix R O ℝ) (h : R → ℝ) (r : R') :
    longProbs (M.submatrix e id) (h ∘ e) r = longProbs M h (e r) := by
  have hd : individualDenominators (M.submatrix e id) (h ∘ e) = individualDenominators M h := by
    funext o
    simp only [individualDenominators, Matrix.mulVec, dotProduct, Matrix.transpose_apply,
      Matrix.submatrix_apply, id, longExponentials, Function.comp_apply]
    exact e.sum_comp fun r => M r o * Real.exp (clipExponent (h r))
  simp only [longProbs, rawLongProbs, hd]
  rfl

/-- What a fit right after the construction computes, in terms of the rows of the model's table. -/
theorem fitInputs_logLik (m : ChoiceModel ℝ) (cls : ModelType) (ir sr : PyRef) (p : ParamArrays) :
    (fitInputs m m.data).logLik id cls ir sr p = (do
      ensureContiguity (m.data.colList m.args.obsIdCol)
      let v ← designDot m.design p.index
      let h ← predictTransform cls (m.data.rowsToAlts m.args.altIdCol) ir sr p v
      .ok (∑ r, m.data.val m.args.choiceCol r *
        Real.log (clippedLogit (m.data.val m.args.obsIdCol) h r))) := by
  unfold FitInputs.logLik
  simp only [fitInputs]
  cases ensureContiguity (m.data.colList m.args.obsIdCol) with
  | error _ => rfl
  | ok _ =>
    simp only [bind, Except.bind]
    have hl : (m.data.colList m.args.altIdCol).length = m.data.numRows := by simp [Frame.colList]
    let e : Fin (m.data.colList m.args.altIdCol).length ≃ Fin m.data.numRows := finCongr hl
    have h1 : ((m.design.map List.ofFn).map fun col => fun r : Fin (m.data.colList m.args.altIdCol).length =>
        (col[r.val]?.map id).getD 0) = m.design.map (· ∘ e) := by
      rw [List.map_map]
      refine List.map_congr_left fun col _ => ?_
      funext r
      have hr : r.val < m.data.numRows := hl ▸ r.isLt
      simp [hr, e]
      rfl
    have h2 : (rowsToAlts (m.data.colList m.args.altIdCol) : Matrix _ _ ℝ) =
        (m.data.rowsToAlts m.args.altIdCol).submatrix e id := by
      ext r j
      rfl
    rw [h1, designDot_rows]
    cases designDot m.design p.index with
    | error _ => rfl
    | ok v =>
      simp only [Except.map]
      rw [h2, transform_rows]
      cases predictTransform cls (m.data.rowsToAlts m.args.altIdCol) ir sr p v with
      | error _ => rfl
      | ok h =>
        simp only [Except.map]
        congr 1
        rw [← frame_longProbs]
        simp only [calcLogLikelihood, defaultWeights, Option.getD_none, one_mul, modelProbs]
        rw [← e.sum_comp]
        refine Finset.sum_congr rfl fun r _ => ?_
        have hr : r.val < m.data.numRows := hl ▸ r.isLt
        have key : ∀ M' : Matrix (Fin (m.data.colList m.args.altIdCol).length)
            (Fin (originalOrderUniqueIds (m.data.colList m.args.obsIdCol)).length) ℝ,
            (∀ r o, M' r o = m.data.rowsToObs m.args.obsIdCol (e r) o) →
            longProbs M' (h ∘ e) r = longProbs (m.data.rowsToObs m.args.obsIdCol) h (e r) := by
          intro M' hM'
          rw [← longProbs_rows]
          congr 1
          ext r o
          exact hM' r o
        refine congrArg₂ (· * ·) ?_ (congrArg Real.log (key _ ?_))
        · simp [Frame.colList, hr, e]
          rfl
        · intro r o
          have hr : r.val < m.data.numRows := hl ▸ r.isLt
          rw [Frame.rowsToObs_apply]
          have hg : (m.data.colList m.args.obsIdCol)[r.val]? = some (m.data.val m.args.obsIdCol (e r)) := by
            simp [Frame.colList, hr, e]
            rfl
          exact if_congr (by rw [hg, Option.some.injEq]) rfl rfl

/-! ## C107: long tables -/

/-- **C107** (long table). Build a logit-type model on a table; let the parameter arrays hold, in the documented
order, the intercept and shape of every alternative, and one index coefficient per described column.  A fit then
maximises the following function of the parameters: the sum, over the rows marked as chosen, of the logarithm of
the (clipped) logit probability of the row within its observation, for utilities computed from the cells of the
row.  If the observation ids of the table are not in ascending order, the fit raises `ValueError`. -/
theorem fit_maximises_table_logLik {env : Env ℝ} {ty : String} {df : Frame ℝ} {a : ModelArgs ℝ}
    {m : ChoiceModel ℝ} (hm : createChoiceModel env ty df a = .ok m)
    (_hcls : m.cls ≠ .nested ∧ m.cls ≠ .mixed) {s : List (String × SpecVal ℝ)}
    (hspec : m.args.specification = encodeAll s) {alts : List ℝ} (ha : AltsOf m.data m.args.altIdCol alts)
    (hasym : m.cls = .asym → 2 ≤ alts.length) {p : ParamArrays} {q : AltParams}
    (hp : HoldsFor m.cls alts m.args.interceptRefPos m.args.shapeRefPos p q)
    (hlen : p.index.length = (specColumns alts s).length) :
    (fitInputs m m.data).logLik id m.cls m.args.interceptRefPos m.args.shapeRefPos p =
      if (m.data.colList m.args.obsIdCol).Pairwise (· ≤ ·) then
        .ok (∑ r, m.data.val m.args.choiceCol r *
          Real.log (clippedLogit (m.data.val m.args.obsIdCol) (fun r =>
            rowUtility m.cls alts q (m.data.val m.args.altIdCol r)
              (rowIndex m.data m.args.altIdCol (specColumns alts s) p.index r)) r))
      else .error .valueError := by
  have hd := (built_own hm).1.design
  rw [hspec] at hd
  have hcols := design_entries ha hd
  rw [fitInputs_logLik]
  split_ifs with hc
  · rw [ensureContiguity_ok.2 hc]
    simp only [bind, Except.bind]
    have : designDot m.design p.index = .ok (rowIndex m.data m.args.altIdCol (specColumns alts s) p.index) := by
      rw [show m.design = _ from hcols]
      exact designDot_ok hlen
    simp only [this, transform_ok ha hasym hp]
  · have : ensureContiguity (m.data.colList m.args.obsIdCol) = .error .valueError := by
      have hn := mt ensureContiguity_ok.1 hc
      unfold ensureContiguity at hn ⊢
      split_ifs at hn ⊢
      · exact absurd rfl hn
      · rfl
    rw [this]
    rfl

end

end Pylogit
