import Verif.Props.ReplicateLikes

/-!
# Replicates of the wrong width (C74)

The table of replicates must have a column per parameter. Fewer columns are refused; further columns are ignored.
-/

namespace Pylogit

open Spec

noncomputable section

/-- The number of parameters of a model: one per name. -/
def Spec.numParams (m : ChoiceModel ℝ) : ℕ :=
  nameCount m.args.nestSpec + nameCount m.args.shapeNames + nameCount m.args.interceptNames + m.indVarNames.length

private lemma loop_index {W : Type} (reps : List W) (a b c k : ℕ) (hk : k ≠ 0) :
    ∃ x y z, paramListLoop reps [a, b, c, k] 0 [] = [some (midSlice (a + b + c) k reps), x, y, z] := by
  simp only [paramListLoop, hk, if_false]
  split_ifs <;> subst_vars <;> simp

private lemma midSlice_append {W : Type} (reps extra : List W) {a k : ℕ} (h : a + k ≤ reps.length) :
    midSlice a k (reps ++ extra) = midSlice a k reps := by
  unfold midSlice
  rw [List.drop_append_of_le_length (by omega), List.take_append_of_le_length (by rw [List.length_drop]; omega)]

private lemma loop_append {W : Type} (reps extra : List W) (ks : List ℕ) (cur : ℕ) (acc : List (Option (List W)))
    (h : cur + ks.sum ≤ reps.length) :
    paramListLoop (reps ++ extra) ks cur acc = paramListLoop reps ks cur acc := by
  induction ks generalizing cur acc with
  | nil => rfl
  | cons k ks ih =>
    rw [List.sum_cons] at h
    simp only [paramListLoop]
    rw [ih _ _ (by omega), ih _ _ (by omega), midSlice_append _ _ (by omega)]

/-- **C74** (too few columns). A table of replicates with fewer columns than the model has parameters is refused. -/
theorem replicate_likes_too_narrow {d : ℕ} (env : Env ℝ) (m : ChoiceModel ℝ) (reps : List (Fin d → ℝ))
    (h : reps.length < numParams m) : ∃ e, replicateLikes env m reps = .error e := by
  unfold replicateLikes replicateParams
  by_cases hk : m.indVarNames.length = 0
  · simp only [hk, paramListLoop]
    split_ifs <;> simp [bind, Except.bind]
  · obtain ⟨x, y, z, e⟩ := loop_index reps (nameCount m.args.nestSpec) (nameCount m.args.shapeNames)
      (nameCount m.args.interceptNames) m.indVarNames.length hk
    rw [e]
    have hl : (midSlice (nameCount m.args.nestSpec + nameCount m.args.shapeNames + nameCount m.args.interceptNames)
        m.indVarNames.length reps).length ≠ m.indVarNames.length := by
      unfold midSlice
      unfold numParams at h
      rw [List.length_take, List.length_drop]
      omega
    simp only [bind, Except.bind, predictFrame2]
    have hc : ∀ w : ParamArraysOf (Fin d → ℝ), w.index.length ≠ m.indVarNames.length →
        ∀ df, ∃ e, predictChecks m df (some w) false (some m.args.choiceCol) = .error e := by
      intro w hw df
      unfold predictChecks
      simp only [checkParamListValidity, checkNumRows, if_pos hw, bind, Except.bind]
      cases ensureColumnsInDataframe [m.args.altIdCol] df <;> simp
      cases ensureColumnsInDataframe [m.args.obsIdCol] df <;> simp
      cases m.args.mixingIdCol with
      | none => simp
      | some c => cases h : ensureColumnsInDataframe [c] df <;> simp [h]
    obtain ⟨er, her⟩ := hc ⟨midSlice (nameCount m.args.nestSpec + nameCount m.args.shapeNames +
      nameCount m.args.interceptNames) m.indVarNames.length reps, x, y, z⟩ hl (addIntercept m.args.specification m.data)
    rw [her]
    exact ⟨_, rfl⟩

/-- **C74** (too many columns). Columns of the table of replicates beyond the number of parameters are ignored. -/
theorem replicate_likes_extra_ignored {d : ℕ} (env : Env ℝ) (m : ChoiceModel ℝ) (reps extra : List (Fin d → ℝ))
    (h : numParams m ≤ reps.length) : replicateLikes env m (reps ++ extra) = replicateLikes env m reps := by
  unfold replicateLikes replicateParams
  rw [loop_append]
  unfold numParams at h
  simp only [List.sum_cons, List.sum_nil]
  omega

/-- Non-vacuity: a model with one coefficient and two intercepts; a replicate with two entries, and one with four. -/
example (env : Env ℝ) (m : ChoiceModel ℝ) (hn : m.args.nestSpec = none) (hs : m.args.shapeNames = none)
    (hi : m.args.interceptNames = some ["a", "b"]) (hx : m.indVarNames.length = 1) :
    (∃ e, replicateLikes env m [fun _ : Fin 2 => 1, fun _ => 2] = .error e) ∧
      replicateLikes env m ([fun _ : Fin 2 => 1, fun _ => 2, fun _ => 3] ++ [fun _ => 4]) =
        replicateLikes env m [fun _ : Fin 2 => 1, fun _ => 2, fun _ => 3] :=
  ⟨replicate_likes_too_narrow env m _ (by simp [numParams, hn, hs, hi, hx, nameCount]),
    replicate_likes_extra_ignored env m _ _ (by simp [numParams, hn, hs, hi, hx, nameCount])⟩

end

end Pylogit
