import Mathlib.Analysis.SpecialFunctions.Pow.Real
import Verif.Model.ChoiceCalcs

/-!
# Model of `src/pylogit/nested_choice_calcs.py` and of the helpers of `nested_logit.py`

Floats are reals.  `N` is the type of nests (columns of `rows_to_nests`).  Coefficient arrays are
one-dimensional (the two-dimensional case raises, lines 94-102).  Replacements of infinite values
(lines 128-132, 137-139, 162-164, 187-189, 203-205, 417-419, 444-446, 485-487, 587-589, 623-628)
cannot fire over the reals and are omitted; replacements of zeros are kept.
-/

open Matrix

namespace Pylogit

noncomputable section

variable {R O K N : Type}

/-- `x[x == 0] = min_comp_value` for one entry (nested_choice_calcs.py:147-148, 191-192, 207-208,
213, 246-247, 255-256, 493-494). -/
def guardZero (x : ℝ) : ℝ := if x = 0 then minCompValue else x

/-- `long_nest_coefs`, nested_choice_calcs.py:123 (and `long_nest_params`, lines 410-413). -/
def longNestCoefs [Fintype N] (rowsToNests : Matrix R N ℝ) (nestCoefs : N → ℝ) : R → ℝ :=
  rowsToNests *ᵥ nestCoefs

/-- `exp_scaled_index`, nested_choice_calcs.py:120-148. -/
def expScaledIndex [Fintype K] [Fintype N] (nestCoefs : N → ℝ) (beta : K → ℝ) (design : Matrix R K ℝ)
    (rowsToNests : Matrix R N ℝ) : R → ℝ :=
  fun r => guardZero (Real.exp ((design *ᵥ beta) r / longNestCoefs rowsToNests nestCoefs r))

/-- `ind_exp_sums_per_nest`, nested_choice_calcs.py:155-156. -/
def indExpSumsPerNest [Fintype R] [Fintype K] [Fintype N] (nestCoefs : N → ℝ) (beta : K → ℝ)
    (design : Matrix R K ℝ) (rowsToObs : Matrix R O ℝ) (rowsToNests : Matrix R N ℝ) :
    Matrix O N ℝ :=
  rowsToObsᵀ * Matrix.of fun r m =>
    rowsToNests r m * expScaledIndex nestCoefs beta design rowsToNests r

/-- `long_exp_sums`, nested_choice_calcs.py:171-181. -/
def longExpSums [Fintype R] [Fintype O] [Fintype K] [Fintype N] (nestCoefs : N → ℝ) (beta : K → ℝ)
    (design : Matrix R K ℝ) (rowsToObs : Matrix R O ℝ) (rowsToNests : Matrix R N ℝ) : R → ℝ :=
  fun r => ∑ m, rowsToNests r m *
    (rowsToObs * indExpSumsPerNest nestCoefs beta design rowsToObs rowsToNests) r m

/-- `ind_denom`, nested_choice_calcs.py:184-192.  `np.power(0, c)` is 0 for `c > 0`, as `Real.rpow`;
for negative `c` numpy gives `inf`, so theorems assume positive nest coefficients. -/
def indDenom [Fintype R] [Fintype K] [Fintype N] (nestCoefs : N → ℝ) (beta : K → ℝ)
    (design : Matrix R K ℝ) (rowsToObs : Matrix R O ℝ) (rowsToNests : Matrix R N ℝ) : O → ℝ :=
  fun o => guardZero
    (∑ m, (indExpSumsPerNest nestCoefs beta design rowsToObs rowsToNests o m) ^ (nestCoefs m))

/-- `long_numerators`, nested_choice_calcs.py:200-208. -/
def longNumerators [Fintype R] [Fintype O] [Fintype K] [Fintype N] (nestCoefs : N → ℝ)
    (beta : K → ℝ) (design : Matrix R K ℝ) (rowsToObs : Matrix R O ℝ)
    (rowsToNests : Matrix R N ℝ) : R → ℝ :=
  fun r => guardZero (expScaledIndex nestCoefs beta design rowsToNests r *
    (longExpSums nestCoefs beta design rowsToObs rowsToNests r) ^
      (longNestCoefs rowsToNests nestCoefs r - 1))

/-- `long_probs`, nested_choice_calcs.py:195-213. -/
def nestedLongProbs [Fintype R] [Fintype O] [Fintype K] [Fintype N] (nestCoefs : N → ℝ)
    (beta : K → ℝ) (design : Matrix R K ℝ) (rowsToObs : Matrix R O ℝ)
    (rowsToNests : Matrix R N ℝ) : R → ℝ :=
  fun r => guardZero (longNumerators nestCoefs beta design rowsToObs rowsToNests r /
    (rowsToObs *ᵥ indDenom nestCoefs beta design rowsToObs rowsToNests) r)

/-- `chosen_probs`, nested_choice_calcs.py:220-222. -/
def nestedChosenProbs [Fintype R] [Fintype O] [Fintype K] [Fintype N] (nestCoefs : N → ℝ)
    (beta : K → ℝ) (design : Matrix R K ℝ) (rowsToObs : Matrix R O ℝ)
    (rowsToNests : Matrix R N ℝ) (chosenRowToObs : Matrix R O ℝ) : O → ℝ :=
  chosenRowToObsᵀ *ᵥ nestedLongProbs nestCoefs beta design rowsToObs rowsToNests

/-- `prob_given_nest`, nested_choice_calcs.py:244-247. -/
def probGivenNest [Fintype R] [Fintype O] [Fintype K] [Fintype N] (nestCoefs : N → ℝ)
    (beta : K → ℝ) (design : Matrix R K ℝ) (rowsToObs : Matrix R O ℝ)
    (rowsToNests : Matrix R N ℝ) : R → ℝ :=
  fun r => guardZero (expScaledIndex nestCoefs beta design rowsToNests r /
    longExpSums nestCoefs beta design rowsToObs rowsToNests r)

/-- `nest_choice_probs`, nested_choice_calcs.py:251-256. -/
def nestChoiceProbs [Fintype R] [Fintype K] [Fintype N] (nestCoefs : N → ℝ)
    (beta : K → ℝ) (design : Matrix R K ℝ) (rowsToObs : Matrix R O ℝ)
    (rowsToNests : Matrix R N ℝ) : Matrix O N ℝ :=
  Matrix.of fun o m => guardZero
    ((indExpSumsPerNest nestCoefs beta design rowsToObs rowsToNests o m) ^ (nestCoefs m) /
      indDenom nestCoefs beta design rowsToObs rowsToNests o)

/-- The dictionary returned for `return_type='all_prob_dict'`, nested_choice_calcs.py:239-261. -/
structure NestedProbDict (R O N : Type) where
  longProbs : R → ℝ
  chosenProbs : Option (O → ℝ)
  probGivenNest : R → ℝ
  nestChoiceProbs : Matrix O N ℝ
  indSumsPerNest : Matrix O N ℝ

/-- What `calc_nested_probs` returns. -/
inductive NestedResult (R O N : Type) where
  | both (chosen : O → ℝ) (long : R → ℝ)
  | long (long : R → ℝ)
  | chosen (chosen : O → ℝ)
  | dict (d : NestedProbDict R O N)

/-- `calc_nested_probs`, nested_choice_calcs.py:22-263. -/
def calcNestedProbs [Fintype R] [Fintype O] [Fintype K] [Fintype N] (nestCoefs : N → ℝ)
    (beta : K → ℝ) (design : Matrix R K ℝ) (rowsToObs : Matrix R O ℝ)
    (rowsToNests : Matrix R N ℝ) (chosenRowToObs : Option (Matrix R O ℝ)) (returnType : String) :
    Except Err (NestedResult R O N) :=
  if returnType ∉ ["long_probs", "chosen_probs", "long_and_chosen_probs", "all_prob_dict"] then
    .error .valueError
  else if chosenRowToObs.isNone && returnType ∈ ["chosen_probs", "long_and_chosen_probs"] then
    .error .valueError
  else
    let lp := nestedLongProbs nestCoefs beta design rowsToObs rowsToNests
    let cp := chosenRowToObs.map fun c =>
      nestedChosenProbs nestCoefs beta design rowsToObs rowsToNests c
    if returnType = "all_prob_dict" then
      .ok (.dict
        { longProbs := lp
          chosenProbs := cp
          probGivenNest := probGivenNest nestCoefs beta design rowsToObs rowsToNests
          nestChoiceProbs := nestChoiceProbs nestCoefs beta design rowsToObs rowsToNests
          indSumsPerNest := indExpSumsPerNest nestCoefs beta design rowsToObs rowsToNests })
    else if returnType = "long_probs" then .ok (.long lp)
    else
      match cp with
      | none => .error .valueError
      | some c => if returnType = "chosen_probs" then .ok (.chosen c) else .ok (.both c lp)

/-- `calc_nested_log_likelihood`, nested_choice_calcs.py:266-350. -/
def calcNestedLogLikelihood [Fintype R] [Fintype O] [Fintype K] [Fintype N] (nestCoefs : N → ℝ)
    (beta : K → ℝ) (design : Matrix R K ℝ) (rowsToObs : Matrix R O ℝ)
    (rowsToNests : Matrix R N ℝ) (choice : R → ℝ) (ridge : Option ℝ) (weights : Option (R → ℝ)) :
    ℝ :=
  let p := nestedLongProbs nestCoefs beta design rowsToObs rowsToNests
  let ll := ∑ r, choice r * (defaultWeights weights r * Real.log (p r))
  match ridge with
  | none => ll
  | some c => ll - c * (∑ m, (nestCoefs m - 1) ^ 2 + ∑ k, beta k ^ 2)

/-- `naturalize_nest_coefs`, nested_choice_calcs.py:466-496. -/
def naturalizeNestCoefs (raw : N → ℝ) : N → ℝ :=
  fun m => guardZero (1 / (1 + Real.exp (-1 * raw m)))

/-- `obs_to_chosen_nests`, nested_choice_calcs.py:423-424. -/
def obsToChosenNests [Fintype R] (choice : R → ℝ) (rowsToObs : Matrix R O ℝ)
    (rowsToNests : Matrix R N ℝ) : Matrix O N ℝ :=
  rowsToObsᵀ * Matrix.of fun r m => rowsToNests r m * choice r

/-- `long_chosen_nest`, nested_choice_calcs.py:425-430. -/
def longChosenNest [Fintype R] [Fintype O] [Fintype N] (choice : R → ℝ) (rowsToObs : Matrix R O ℝ)
    (rowsToNests : Matrix R N ℝ) : R → ℝ :=
  fun r => ∑ m, rowsToNests r m * (rowsToObs * obsToChosenNests choice rowsToObs rowsToNests) r m

/-- `log_exp_sums`, nested_choice_calcs.py:595-597 and 772-774: the logarithm with `log 0 = -inf`
replaced by `-max_comp_value`. -/
def logExpSum (x : ℝ) : ℝ := if x = 0 then -1 * maxCompValue else Real.log x

/-- The vectors shared by the gradient and the BHHH matrix: `prep_vectors_for_gradient`,
nested_choice_calcs.py:355-460, together with `long_w` (lines 583-586, 760-763). -/
structure GradVectors (R O N : Type) where
  longNestParams : R → ℝ
  scaledY : R → ℝ
  longChosenNest : R → ℝ
  obsToChosenNests : Matrix O N ℝ
  pTildeGivenNest : R → ℝ
  longProbs : R → ℝ
  probGivenNest : R → ℝ
  nestChoiceProbs : Matrix O N ℝ
  indSumsPerNest : Matrix O N ℝ
  longW : R → ℝ

/-- `prep_vectors_for_gradient`, nested_choice_calcs.py:407-460 and `long_w`, lines 583-586. -/
def prepVectors [Fintype R] [Fintype O] [Fintype K] [Fintype N] (nestCoefs : N → ℝ)
    (beta : K → ℝ) (design : Matrix R K ℝ) (choice : R → ℝ) (rowsToObs : Matrix R O ℝ)
    (rowsToNests : Matrix R N ℝ) : GradVectors R O N :=
  let lam := longNestCoefs rowsToNests nestCoefs
  let pgn := probGivenNest nestCoefs beta design rowsToObs rowsToNests
  let lcn := longChosenNest choice rowsToObs rowsToNests
  { longNestParams := lam
    scaledY := fun r => choice r / lam r
    longChosenNest := lcn
    obsToChosenNests := obsToChosenNests choice rowsToObs rowsToNests
    pTildeGivenNest := fun r => pgn r * lcn r / lam r
    longProbs := nestedLongProbs nestCoefs beta design rowsToObs rowsToNests
    probGivenNest := pgn
    nestChoiceProbs := nestChoiceProbs nestCoefs beta design rowsToObs rowsToNests
    indSumsPerNest := indExpSumsPerNest nestCoefs beta design rowsToObs rowsToNests
    longW := fun r => (design *ᵥ beta) r / lam r }

/-- `nest_gradient_term_1` before summation and weighting, nested_choice_calcs.py:601-603, 779-781. -/
def nestTerm1 (v : GradVectors R O N) : Matrix O N ℝ := Matrix.of fun o m =>
  (v.obsToChosenNests o m - v.nestChoiceProbs o m) * logExpSum (v.indSumsPerNest o m)

/-- `half_deriv` without weights, nested_choice_calcs.py:608-611, 785-788. -/
def halfDeriv (v : GradVectors R O N) : R → ℝ := fun r =>
  (v.longProbs r - v.longChosenNest r * v.probGivenNest r) * v.longW r

/-- `nest_gradient_term_3b` with weights, nested_choice_calcs.py:618-622 (801-802 with weights 1). -/
def nestTerm3b (v : GradVectors R O N) (choice w : R → ℝ) : R → ℝ := fun r =>
  (-1 * (choice r - v.longChosenNest r * v.probGivenNest r) * v.longW r * w r) / v.longNestParams r

/-- `beta_gradient_term_1` without weights, nested_choice_calcs.py:651-655, 835-839. -/
def betaTerm1 (v : GradVectors R O N) : R → ℝ := fun r =>
  v.scaledY r - v.pTildeGivenNest r + v.pTildeGivenNest r * v.longNestParams r - v.longProbs r

/-- `jacobian`, nested_choice_calcs.py:639-642, 822-825. -/
def nestJacobian (useJacobian : Bool) (nestCoefs : N → ℝ) : N → ℝ := fun m =>
  if useJacobian then nestCoefs m * (1 - nestCoefs m) else 1

/-- `calc_nested_gradient`, nested_choice_calcs.py:500-676. -/
def calcNestedGradient [Fintype R] [Nonempty R] [Fintype O] [Fintype K] [Fintype N]
    (origNestCoefs : N → ℝ) (beta : K → ℝ) (design : Matrix R K ℝ) (choice : R → ℝ)
    (rowsToObs : Matrix R O ℝ) (rowsToNests : Matrix R N ℝ) (ridge : Option ℝ)
    (weights : Option (R → ℝ)) (useJacobian : Bool) : N ⊕ K → ℝ :=
  let w := defaultWeights weights
  let wObs := weightsPerObs rowsToObs w
  let nestCoefs := naturalizeNestCoefs origNestCoefs
  let v := prepVectors nestCoefs beta design choice rowsToObs rowsToNests
  let term1 : N → ℝ := fun m => ∑ o, nestTerm1 v o m * wObs o
  let term2 : N → ℝ := rowsToNestsᵀ *ᵥ fun r => halfDeriv v r * w r
  let term3 : N → ℝ := rowsToNestsᵀ *ᵥ nestTerm3b v choice w
  let nestGradient : N → ℝ := fun m =>
    (term1 m + term2 m + term3 m) * nestJacobian useJacobian nestCoefs m
  let betaGradient : K → ℝ := (fun r => betaTerm1 v r * w r) ᵥ* design
  let gradient : N ⊕ K → ℝ := Sum.elim nestGradient betaGradient
  match ridge with
  | none => gradient
  | some c => fun i =>
      gradient i - 2 * c * (Sum.elim (fun m => 20 - origNestCoefs m) beta : N ⊕ K → ℝ) i

/-- `gradient_matrix` of `calc_bhhh_hessian_approximation`, nested_choice_calcs.py:748-848: one row
of derivatives per observation. -/
def nestedScores [Fintype R] [Fintype O] [Fintype K] [Fintype N]
    (origNestCoefs : N → ℝ) (beta : K → ℝ) (design : Matrix R K ℝ) (choice : R → ℝ)
    (rowsToObs : Matrix R O ℝ) (rowsToNests : Matrix R N ℝ) (useJacobian : Bool) :
    Matrix O (N ⊕ K) ℝ :=
  let nestCoefs := naturalizeNestCoefs origNestCoefs
  let v := prepVectors nestCoefs beta design choice rowsToObs rowsToNests
  let term2 : Matrix O N ℝ :=
    rowsToObsᵀ * Matrix.of fun r m => rowsToNests r m * halfDeriv v r
  let term3 : Matrix O N ℝ :=
    rowsToObsᵀ * Matrix.of fun r m => rowsToNests r m * nestTerm3b v choice (fun _ => 1) r
  let nestGradient : Matrix O N ℝ := Matrix.of fun o m =>
    (nestTerm1 v o m + term2 o m + term3 o m) * nestJacobian useJacobian nestCoefs m
  let betaGradient : Matrix O K ℝ := rowsToObsᵀ * Matrix.of fun r k => betaTerm1 v r * design r k
  Matrix.fromCols nestGradient betaGradient

/-- `calc_bhhh_hessian_approximation`, nested_choice_calcs.py:682-870. -/
def calcNestedBHHH [Fintype R] [Nonempty R] [Fintype O] [Fintype K] [Fintype N]
    [DecidableEq N] [DecidableEq K]
    (origNestCoefs : N → ℝ) (beta : K → ℝ) (design : Matrix R K ℝ) (choice : R → ℝ)
    (rowsToObs : Matrix R O ℝ) (rowsToNests : Matrix R N ℝ) (ridge : Option ℝ)
    (weights : Option (R → ℝ)) (useJacobian : Bool) : Matrix (N ⊕ K) (N ⊕ K) ℝ :=
  let wObs := weightsPerObs rowsToObs (defaultWeights weights)
  let G := nestedScores origNestCoefs beta design choice rowsToObs rowsToNests useJacobian
  let bhhh := Gᵀ * Matrix.of fun o i => wObs o * G o i
  let bhhh := match ridge with
    | none => bhhh
    | some c => bhhh + (2 * c) • (1 : Matrix (N ⊕ K) (N ⊕ K) ℝ)
  (-1 : ℝ) • bhhh

end

/-- `identify_degenerate_nests`, nested_logit.py:36-58: the loop over `enumerate(nest_spec)`.
The nest specification is the list of its (name, alternatives) items in order. -/
def identifyDegenerateNests {V : Type} (nestSpec : List (String × List V)) : List ℕ :=
  (List.range nestSpec.length).filter fun pos =>
    match nestSpec[pos]? with
    | some kv => kv.2.length == 1
    | none => false

/-- `final_constrained_pos`, nested_logit.py:517-523: `sorted(list(set(...)))` of the degenerate and
the user's positions. -/
def finalConstrainedPos {V : Type} (nestSpec : List (String × List V))
    (userPos : Option (List ℤ)) : List ℤ :=
  let fixed := (identifyDegenerateNests nestSpec).map (Int.ofNat) ++ userPos.getD []
  fixed.dedup.mergeSort (· ≤ ·)

/-- The masking loop of `NestedEstimator.convenience_calc_hessian`, nested_logit.py:313-317: for each
constrained position in order, zero its row and column and put -1 on the diagonal. -/
def maskHessian {P : Type} [DecidableEq P] (H : Matrix P P ℝ) : List P → Matrix P P ℝ
  | [] => H
  | i :: rest => maskHessian (Matrix.of fun a b =>
      if a = i ∧ b = i then -1 else if a = i ∨ b = i then 0 else H a b) rest

end Pylogit
