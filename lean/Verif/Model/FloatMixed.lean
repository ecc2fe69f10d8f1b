import Verif.Model.Float

/-!
# Model of the mixed logit on floating point numbers

`calc_choice_sequence_probs`, `calc_mixed_log_likelihood` and `calc_mixed_logit_gradient` on the floating
point numbers of `Verif.Model.Float`.  `t r j` is the transformed utility of row `r` at draw `j`, `mixer r` the
unit the row belongs to.  Sums and averages are taken in order (NumPy adds up long rows in another order).
-/

namespace Pylogit

noncomputable section

variable {A : FloatFormat} {n m d : ℕ} {O : Type} [DecidableEq O]

/-- `prob_array`, mixed_logit_calcs.py:324-330: `calc_probabilities` (choice_calcs.py:143-165) on each column of
the utilities. -/
def floatProbArray (L : MathLib A) (obs : Fin n → O) (t : Fin n → Fin d → Fl A) (r : Fin n) (j : Fin d) : Fl A :=
  floatLongProbs L obs (fun s => t s j) r

/-- `expanded_log_sequence_probs`, mixed_logit_calcs.py:222-226, for the array `p` of probabilities. -/
def floatLogSequence (L : MathLib A) (mixer : Fin n → Fin m) (choice : Fin n → Fl A)
    (p : Fin n → Fin d → Fl A) (k : Fin m) (j : Fin d) : Fl A :=
  .sum ((rowsOfObs mixer k).map fun r => (Fl.round A 1).mul ((choice r).mul ((p r j).log L)))

/-- `expanded_sequence_probs` with its guard, mixed_logit_calcs.py:229-232. -/
def floatSequence (L : MathLib A) (mixer : Fin n → Fin m) (choice : Fin n → Fl A)
    (p : Fin n → Fin d → Fl A) (k : Fin m) (j : Fin d) : Fl A :=
  ((floatLogSequence L mixer choice p k j).exp L).guardZero

/-- `x.mean()` over the draws. -/
def floatMean (x : Fin d → Fl A) : Fl A := (Fl.sum (List.ofFn x)).div (.round A d)

/-- `sequence_probs`, mixed_logit_calcs.py:235. -/
def floatSequenceProb (L : MathLib A) (mixer : Fin n → Fin m) (choice : Fin n → Fl A)
    (p : Fin n → Fin d → Fl A) (k : Fin m) : Fl A :=
  floatMean fun j => floatSequence L mixer choice p k j

open Classical in
/-- `np.max` of two numbers; a NaN is passed on. -/
def Fl.max (x y : Fl A) : Fl A := if y = .nan ∨ x.lt y then y else x

/-- `weights_per_obs`, mixed_logit_calcs.py:319-320: the maximum over all rows of the entry of `rows_to_mixers`
times the weight of the row. -/
def floatMixerWeight (mixer : Fin n → Fin m) (weights : Fin n → Fl A) (k : Fin m) : Fl A :=
  let entries := (List.finRange n).map fun r => (Fl.round A (if mixer r = k then 1 else 0)).mul (weights r)
  entries.tail.foldl Fl.max (entries.headD (.round A 0))

/-- `calc_mixed_log_likelihood` without a ridge penalty, mixed_logit_calcs.py:316-346. -/
def floatMixedLogLik (L : MathLib A) (obs : Fin n → O) (mixer : Fin n → Fin m) (t : Fin n → Fin d → Fl A)
    (choice weights : Fin n → Fl A) : Fl A :=
  .sum ((List.finRange m).map fun k =>
    (floatMixerWeight mixer weights k).mul
      ((floatSequenceProb L mixer choice (floatProbArray L obs t) k).log L))

/-- `scaled_sequence_probs`, mixed_logit_calcs.py:451-455. -/
def floatScaled (L : MathLib A) (mixer : Fin n → Fin m) (choice : Fin n → Fl A) (p : Fin n → Fin d → Fl A)
    (r : Fin n) (j : Fin d) : Fl A :=
  (floatSequence L mixer choice p (mixer r) j).pick.div (floatSequenceProb L mixer choice p (mixer r)).pick

/-- One entry of `calc_mixed_logit_gradient` without a ridge penalty, mixed_logit_calcs.py:456-469: `x r j` is the
entry of the expanded design for the parameter. -/
def floatMixedGradient (L : MathLib A) (obs : Fin n → O) (mixer : Fin n → Fin m) (t : Fin n → Fin d → Fl A)
    (choice weights : Fin n → Fl A) (x : Fin n → Fin d → Fl A) : Fl A :=
  floatMean fun j => .sum ((List.finRange n).map fun r =>
    (((((choice r).sub (floatProbArray L obs t r j)).mul
      (floatScaled L mixer choice (floatProbArray L obs t) r j)).mul (x r j)).mul (weights r)))

end

end Pylogit
