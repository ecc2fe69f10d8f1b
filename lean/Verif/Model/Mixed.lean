import Mathlib.Data.Fintype.Sum
import Verif.Model.ChoiceCalcs
import Verif.Model.Transforms
import Verif.Model.Mappings

/-!
# Model of `src/pylogit/mixed_logit_calcs.py` and of the mixed logit parts of
`src/pylogit/mixed_logit.py` and `src/pylogit/base_multinomial_cm_v2.py`

Index types: `R` long-format rows, `O` observations, `M` mixing units (individuals), `K` design
columns, `J` mixed variables, `D` draws, `P` columns of the three-dimensional design.
-/

open Matrix

namespace Pylogit

noncomputable section

variable {R O A M K J D P ι : Type}

/-- `convert_mixing_names_to_positions`, mixed_logit_calcs.py:90-105: `list.index` returns the
position of the first occurrence and raises `ValueError` if there is none. -/
def convertMixingNames {ν : Type} [DecidableEq ν] (mixingNames indVarNames : List ν) :
    Except Err (List ℕ) :=
  mixingNames.mapM fun name =>
    if name ∈ indVarNames then .ok (indVarNames.idxOf name) else .error .valueError

/-- `get_normal_draws`, mixed_logit_calcs.py:46-87.  `rvs i` is the array returned by the `i`-th call
of the random number generator (external code).  The type checks (`isinstance(x, int)`) and the
seed are not modelled; the assertions on the sizes are. -/
def getNormalDraws (numMixers numDraws numVars : ℕ)
    (rvs : ℕ → Fin numMixers → Fin numDraws → ℝ) :
    Except Err (List (Fin numMixers → Fin numDraws → ℝ)) :=
  if 0 < numMixers ∧ 0 < numDraws ∧ 0 < numVars then
    .ok ((List.range numVars).map rvs)
  else .error .assertionError

/-- `create_expanded_design_for_mixing` after its length check, mixed_logit_calcs.py:145-177: the
original columns (`Sum.inl k`), repeated for every draw, followed by one column per mixed
variable (`Sum.inr j`), which is the design column `mixing_pos[j]` times the draw of the row's
mixing unit. -/
def expandedDesign [Fintype M] (design : Matrix R K ℝ) (draws : J → M → D → ℝ) (pos : J → K)
    (rowsToMixers : Matrix R M ℝ) : R → D → K ⊕ J → ℝ :=
  fun r d q =>
    match q with
    | .inl k => design r k
    | .inr j => design r (pos j) * (rowsToMixers *ᵥ fun m => draws j m d) r

/-- `create_expanded_design_for_mixing`, mixed_logit_calcs.py:108-177.  `draw_list[0]` (line 147)
raises `IndexError` for an empty list. -/
def createExpandedDesign [Fintype M] (design : Matrix R K ℝ) (drawList : List (M → D → ℝ))
    (mixingPos : List K) (rowsToMixers : Matrix R M ℝ) :
    Except Err (R → D → K ⊕ Fin mixingPos.length → ℝ) :=
  if h : mixingPos.length = drawList.length then
    if drawList = [] then .error .indexError
    else .ok (expandedDesign design (fun j => drawList.get (j.cast h)) mixingPos.get rowsToMixers)
  else .error .valueError

/-- `log_chosen_prob_array`, `expanded_log_sequence_probs` and `expanded_sequence_probs` with the zero
guard, mixed_logit_calcs.py:222-232. -/
def expandedSequenceProbs [Fintype R] (prob : R → D → ℝ) (choice : R → ℝ)
    (rowsToMixers : Matrix R M ℝ) : M → D → ℝ :=
  fun m d =>
    let s := Real.exp ((rowsToMixersᵀ *ᵥ fun r => choice r * Real.log (prob r d)) m)
    if s = 0 then minCompValue else s

/-- `x.mean()` over the draws. -/
def drawMean [Fintype D] (x : D → ℝ) : ℝ := (∑ d, x d) / (Fintype.card D : ℝ)

/-- `sequence_probs`, mixed_logit_calcs.py:235. -/
def sequenceProbs [Fintype R] [Fintype D] (prob : R → D → ℝ) (choice : R → ℝ)
    (rowsToMixers : Matrix R M ℝ) : M → ℝ :=
  fun m => drawMean fun d => expandedSequenceProbs prob choice rowsToMixers m d

/-- What `calc_choice_sequence_probs` returns. -/
inductive SeqResult (M D : Type) where
  | one (seq : M → ℝ)
  | all (seq : M → ℝ) (expanded : M → D → ℝ)

/-- `calc_choice_sequence_probs`, mixed_logit_calcs.py:180-240. -/
def calcChoiceSequenceProbs [Fintype R] [Fintype D] (prob : R → D → ℝ) (choice : R → ℝ)
    (rowsToMixers : Matrix R M ℝ) (returnType : Option String) : Except Err (SeqResult M D) :=
  match returnType with
  | none => .ok (.one (sequenceProbs prob choice rowsToMixers))
  | some s =>
    if s = "all" then
      .ok (.all (sequenceProbs prob choice rowsToMixers)
        (expandedSequenceProbs prob choice rowsToMixers))
    else .error .valueError

/-- `prob_array`: `general_calc_probabilities(params, design_3d, ..., return_long_probs=True)`,
mixed_logit_calcs.py:324-330, 430-436, 669-675, with the utility transformation of the mixed logit
(`mnl_utility_transform`, mixed_logit.py:82-103).  That `calcProbabilities` returns this is
`calcProbabilities_long_3d`. -/
def kernelProbs [Fintype R] [Fintype O] [Fintype P] (params : P → ℝ) (design3d : R → D → P → ℝ)
    (rowsToObs : Matrix R O ℝ) : R → D → ℝ :=
  fun r d => longProbs rowsToObs (fun r => ∑ q, design3d r d q * params q) r

/-- `calc_mixed_log_likelihood`, mixed_logit_calcs.py:243-348. -/
def mixedLogLikelihood [Fintype R] [Nonempty R] [Fintype O] [Fintype M] [Fintype D] [Fintype P]
    (params : P → ℝ) (design3d : R → D → P → ℝ) (rowsToObs : Matrix R O ℝ)
    (rowsToMixers : Matrix R M ℝ) (choice : R → ℝ) (ridge : Option ℝ)
    (weights : Option (R → ℝ)) : ℝ :=
  let wPerObs := weightsPerObs rowsToMixers (defaultWeights weights)
  let prob := kernelProbs params design3d rowsToObs
  let simulated := sequenceProbs prob choice rowsToMixers
  let ll := ∑ m, wPerObs m * Real.log (simulated m)
  match ridge with
  | none => ll
  | some c => ll - c * ∑ q, params q ^ 2

/-- `scaled_error`, mixed_logit_calcs.py:441-458 and 680-697. -/
def scaledError [Fintype R] [Fintype M] [Fintype D] (prob : R → D → ℝ) (choice : R → ℝ)
    (rowsToMixers : Matrix R M ℝ) : R → D → ℝ :=
  fun r d =>
    let seqArray := expandedSequenceProbs prob choice rowsToMixers
    let simulated := sequenceProbs prob choice rowsToMixers
    (choice r - prob r d) *
      ((rowsToMixers *ᵥ fun m => seqArray m d) r / (rowsToMixers *ᵥ simulated) r)

/-- `calc_mixed_logit_gradient`, mixed_logit_calcs.py:351-475. -/
def mixedGradient [Fintype R] [Fintype O] [Fintype M] [Fintype D] [Fintype P]
    (params : P → ℝ) (design3d : R → D → P → ℝ) (rowsToObs : Matrix R O ℝ)
    (rowsToMixers : Matrix R M ℝ) (choice : R → ℝ) (ridge : Option ℝ)
    (weights : Option (R → ℝ)) : P → ℝ :=
  let w := defaultWeights weights
  let prob := kernelProbs params design3d rowsToObs
  let err := scaledError prob choice rowsToMixers
  ridgeGrad ridge params fun q => drawMean fun d => ∑ r, err r d * design3d r d q * w r

/-- `calc_neg_log_likelihood_and_neg_gradient`, mixed_logit_calcs.py:478-585. -/
def mixedNegLLAndGradient [Fintype R] [Nonempty R] [Fintype O] [Fintype M] [Fintype D] [Fintype P]
    [DecidableEq P] (params : P → ℝ) (design3d : R → D → P → ℝ) (rowsToObs : Matrix R O ℝ)
    (rowsToMixers : Matrix R M ℝ) (choice : R → ℝ) (constrainedPos : Option (List P))
    (ridge : Option ℝ) (weights : Option (R → ℝ)) : ℝ × (P → ℝ) :=
  let negLL := -1 * mixedLogLikelihood params design3d rowsToObs rowsToMixers choice ridge weights
  let negGrad : P → ℝ :=
    fun q => -1 * mixedGradient params design3d rowsToObs rowsToMixers choice ridge weights q
  match constrainedPos with
  | none => (negLL, negGrad)
  | some l => (negLL, fun q => if q ∈ l then 0 else negGrad q)

/-- `gradient_per_obs`, mixed_logit_calcs.py:669-707. -/
def mixedScores [Fintype R] [Fintype O] [Fintype M] [Fintype D] [Fintype P]
    (params : P → ℝ) (design3d : R → D → P → ℝ) (rowsToObs : Matrix R O ℝ)
    (rowsToMixers : Matrix R M ℝ) (choice : R → ℝ) : Matrix M P ℝ :=
  let err := scaledError (kernelProbs params design3d rowsToObs) choice rowsToMixers
  rowsToMixersᵀ * Matrix.of fun r q => drawMean fun d => err r d * design3d r d q

/-- `calc_bhhh_hessian_approximation_mixed_logit`, mixed_logit_calcs.py:588-717. -/
def mixedBHHH [Fintype R] [Nonempty R] [Fintype O] [Fintype M] [Fintype D] [Fintype P]
    [DecidableEq P] (params : P → ℝ) (design3d : R → D → P → ℝ) (rowsToObs : Matrix R O ℝ)
    (rowsToMixers : Matrix R M ℝ) (choice : R → ℝ) (ridge : Option ℝ)
    (weights : Option (R → ℝ)) : Matrix P P ℝ :=
  let wPerObs := weightsPerObs rowsToMixers (defaultWeights weights)
  let G := mixedScores params design3d rowsToObs rowsToMixers choice
  let bhhh := Gᵀ * Matrix.of fun m q => wPerObs m * G m q
  let bhhh := match ridge with
    | none => bhhh
    | some c => bhhh - (2 * c) • (1 : Matrix P P ℝ)
  (-1 : ℝ) • bhhh

/-- The mixed logit branch of `MNDC_Model.predict`, base_multinomial_cm_v2.py:1930-1960, from the
design matrix, mappings and draws of the new data on.  `prob_array.mean(axis=1)` raises
`AttributeError` when `calc_probabilities` returned a tuple. -/
def mixedPredict [Fintype R] [Fintype O] [Fintype M] [Fintype K] [Fintype D]
    (mixingPos : List K) (coefs : K ⊕ Fin mixingPos.length → ℝ) (design : Matrix R K ℝ)
    (altIDs : R → ι) (rowsToObs : Matrix R O ℝ) (rowsToAlts : Matrix R A ℝ) (rowsToMixers : Matrix R M ℝ)
    (drawList : List (M → D → ℝ))
    (chosenRowToObs : Option (Matrix R O ℝ)) (returnLongProbs : Bool) :
    Except Err ((R → ℝ) ⊕ (O → ℝ)) := do
  let design3d ← createExpandedDesign design drawList mixingPos rowsToMixers
  let res ← calcProbabilities (S := Empty) (I := Empty) (.vec coefs) (.three design3d)
    altIDs rowsToObs rowsToAlts mnlTransform none none chosenRowToObs returnLongProbs
  match res with
  | .long l => .ok (.inl fun r => drawMean (l r))
  | .chosen c => .ok (.inr fun o => drawMean (c o))
  | .both _ _ => .error .attributeError

/-! ## Panel prediction -/

/-- The mapping filter `__filter_past_mappings`, mixed_logit.py:625-679, for one mapping whose rows all
have a non-zero sum (so the row filter keeps the rows in the mask; see
`filter_rows_are_masked`): the columns kept are those with a non-zero sum over the masked rows. -/
def keptCols {n : ℕ} [Fintype R] (mapping : Matrix R (Fin n) ℝ) (mask : R → Prop)
    [DecidablePred mask] : List (Fin n) :=
  open Classical in
  (List.finRange n).filter fun c => (∑ r, mapping r c * (if mask r then 1 else 0)) ≠ 0

/-- The filtered mapping, mixed_logit.py:664-677: masked rows, kept columns in their original order. -/
def filterPastMapping {n : ℕ} [Fintype R] (mapping : Matrix R (Fin n) ℝ) (mask : R → Prop)
    [DecidablePred mask] : Matrix {r // mask r} (Fin (keptCols mapping mask).length) ℝ :=
  Matrix.of fun r c => mapping r.1 ((keptCols mapping mask).get c)

section Panel

variable [LinearOrder ι] {R' O' : Type}

/-- `new_unique_mix_id_repeats`, mixed_logit.py:854-855, as the list of positions where it is true. -/
def newRepeatPos (old new : List ι) : List (Fin (originalOrderUniqueIds new).length) :=
  (List.finRange _).filter fun c =>
    (originalOrderUniqueIds new).get c ∈ originalOrderUniqueIds old

/-- `old_unique_mix_id_repeats`, mixed_logit.py:852-853, as the list of positions where it is true. -/
def oldRepeatPos (old new : List ι) : List (Fin (originalOrderUniqueIds old).length) :=
  (List.finRange _).filter fun c =>
    (originalOrderUniqueIds old).get c ∈ originalOrderUniqueIds new

/-- `old_repeat_mixing_id_idx`, mixed_logit.py:849-850. -/
abbrev oldRepeatRow (old new : List ι) (r : Fin old.length) : Prop :=
  old.get r ∈ originalOrderUniqueIds new

/-- `past_mappings["rows_to_mixers"]`, mixed_logit.py:866-868. -/
def pastRowsToMixers (old new : List ι) :=
  filterPastMapping (rowsToObs (V := ℝ) old) (oldRepeatRow old new)

/-- `past_sequence_probs_per_draw`, mixed_logit.py:860-905.  The draws of the past design are
`draw_list` restricted to the repeated new individuals in the order of the new data
(line 872); the columns of the past mapping follow the order of the old data.  A length mismatch
would make `rows_to_mixers.dot(rel_draws)` raise `ValueError`. -/
def pastSequenceProbs [Fintype K] [Fintype J] [Fintype D] {nObs : ℕ} (old new : List ι)
    (coefs : K ⊕ J → ℝ) (pos : J → K)
    (draws : J → Fin (originalOrderUniqueIds new).length → D → ℝ)
    (oldDesign : Matrix (Fin old.length) K ℝ) (oldRowsToObs : Matrix (Fin old.length) (Fin nObs) ℝ)
    (oldChoices : Fin old.length → ℝ) :
    Except Err (Fin (keptCols (rowsToObs (V := ℝ) old) (oldRepeatRow old new)).length → D → ℝ) :=
  if h : (keptCols (rowsToObs (V := ℝ) old) (oldRepeatRow old new)).length =
      (newRepeatPos old new).length then
    let pastDraws : J → Fin (keptCols (rowsToObs (V := ℝ) old) (oldRepeatRow old new)).length →
      D → ℝ := fun j m d => draws j ((newRepeatPos old new).get (m.cast h)) d
    let pastDesign : Matrix {r // oldRepeatRow old new r} K ℝ := Matrix.of fun r k => oldDesign r.1 k
    let past3d := expandedDesign pastDesign pastDraws pos (pastRowsToMixers old new)
    let pastProbs := kernelProbs coefs past3d
      (filterPastMapping oldRowsToObs (oldRepeatRow old new))
    .ok (expandedSequenceProbs pastProbs (fun r => oldChoices r.1) (pastRowsToMixers old new))
  else .error .valueError

/-- `past_weights` of line 908 and their rearrangement, mixed_logit.py:908-920: row `i` of
`new_to_old_repeat_ids.dot(past_weights)`, `i` being a position in `rel_new_ids`. -/
def rearrangedPastWeights [Fintype D] {n : ℕ} (old new : List ι) (seq : Fin n → D → ℝ)
    (h : n = (oldRepeatPos old new).length) :
    Fin (newRepeatPos old new).length → D → ℝ :=
  let pastWeights : Fin n → D → ℝ := fun m d => seq m d / ∑ d, seq m d
  let newToOld : Matrix (Fin (newRepeatPos old new).length) (Fin n) ℝ := Matrix.of fun i m =>
    if (originalOrderUniqueIds new).get ((newRepeatPos old new).get i) =
        (originalOrderUniqueIds old).get ((oldRepeatPos old new).get (m.cast h)) then 1 else 0
  fun i d => (newToOld *ᵥ fun m => pastWeights m d) i

/-- `weights_per_ind_per_draw`, mixed_logit.py:826-828 and 922-923: `1 / num_draws`, overwritten at the
positions of the repeated individuals; the `i`-th true position receives the `i`-th row. -/
def weightsPerIndPerDraw [Fintype D] (old new : List ι)
    (w : Fin (newRepeatPos old new).length → D → ℝ) :
    Fin (originalOrderUniqueIds new).length → D → ℝ :=
  fun c d =>
    if h : c ∈ newRepeatPos old new then
      w ⟨(newRepeatPos old new).idxOf c, List.idxOf_lt_length_iff.2 h⟩ d
    else 1 / (Fintype.card D : ℝ)

/-- What `panel_predict` returns. -/
inductive PanelResult (R O : Type) where
  | both (chosen : O → ℝ) (long : R → ℝ)
  | long (long : R → ℝ)
  | chosen (chosen : O → ℝ)

/-- `pred_probs_long`, mixed_logit.py:786-936, from the design matrices, mappings and draws on.
`old`, `new`: mixing ids of the rows of the estimation data and of the new data. -/
def panelPredictLong [Fintype O'] [Fintype K] [Fintype J] [Fintype D] {nObs : ℕ}
    (old new : List ι) (coefs : K ⊕ J → ℝ) (pos : J → K)
    (draws : J → Fin (originalOrderUniqueIds new).length → D → ℝ)
    (newDesign : Matrix (Fin new.length) K ℝ) (newRowsToObs : Matrix (Fin new.length) O' ℝ)
    (oldDesign : Matrix (Fin old.length) K ℝ) (oldRowsToObs : Matrix (Fin old.length) (Fin nObs) ℝ)
    (oldChoices : Fin old.length → ℝ) : Except Err (Fin new.length → ℝ) := do
  let newRowsToMixers := rowsToObs (V := ℝ) new
  let new3d := expandedDesign newDesign draws pos newRowsToMixers
  let kernel := kernelProbs coefs new3d newRowsToObs
  let seq ← pastSequenceProbs old new coefs pos draws oldDesign oldRowsToObs oldChoices
  if h : (keptCols (rowsToObs (V := ℝ) old) (oldRepeatRow old new)).length =
      (oldRepeatPos old new).length then
    let w := weightsPerIndPerDraw old new (rearrangedPastWeights old new seq h)
    .ok fun r => ∑ d, (newRowsToMixers *ᵥ fun m => w m d) r * kernel r d
  else .error .valueError

/-- `panel_predict`, mixed_logit.py:741-743 and 938-959 around `panelPredictLong`; the parts before
(reading the data, column checks, design matrix, mappings) are modelled in `Model/Design.lean` and
`Model/Mappings.lean` and enter as arguments. -/
def panelPredict [Fintype O'] [Fintype K] [Fintype J] [Fintype D] {nObs : ℕ}
    (old new : List ι) (coefs : K ⊕ J → ℝ) (pos : J → K)
    (draws : J → Fin (originalOrderUniqueIds new).length → D → ℝ)
    (newDesign : Matrix (Fin new.length) K ℝ) (newRowsToObs : Matrix (Fin new.length) O' ℝ)
    (newChosenToObs : Option (Matrix (Fin new.length) O' ℝ))
    (oldDesign : Matrix (Fin old.length) K ℝ) (oldRowsToObs : Matrix (Fin old.length) (Fin nObs) ℝ)
    (oldChoices : Fin old.length → ℝ) (returnLongProbs : Bool) :
    Except Err (PanelResult (Fin new.length) O') :=
  if newChosenToObs.isNone && !returnLongProbs then .error .valueError
  else do
    let long ← panelPredictLong old new coefs pos draws newDesign newRowsToObs oldDesign
      oldRowsToObs oldChoices
    match newChosenToObs, returnLongProbs with
    | some c, true => .ok (.both (cᵀ *ᵥ long) long)
    | none, _ => .ok (.long long)
    | some c, false => .ok (.chosen (cᵀ *ᵥ long))

end Panel

end

end Pylogit
