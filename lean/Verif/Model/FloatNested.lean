import Verif.Model.Float

/-!
# Model of the nested logit on floating point numbers

`calc_nested_probs` with all its guards, on the floating point numbers of `Verif.Model.Float`: `index r` is the
systematic utility of row `r`, `lam k` the coefficient of nest `k`, `obs` and `nest` the observation and the
nest of a row.  Sums are taken in order (NumPy adds up rows of more than eight nests in another order).
-/

namespace Pylogit

noncomputable section

variable {A : FloatFormat} {n m : ℕ} {O : Type} [DecidableEq O]

/-- `naturalize_nest_coefs` of one parameter, nested_choice_calcs.py:483-496. -/
def floatNaturalize (L : MathLib A) (raw : Fl A) : Fl A :=
  ((Fl.round A 1).div ((Fl.round A 1).add (((Fl.round A (-1)).mul raw).exp L).guardPos)).guardZero

/-- `scaled_index` with its guards, nested_choice_calcs.py:122-132. -/
def floatScaledIndex (lam : Fin m → Fl A) (nest : Fin n → Fin m) (index : Fin n → Fl A) (r : Fin n) : Fl A :=
  ((index r).div (lam (nest r)).pick).guardPos.guardNeg

/-- `exp_scaled_index` with its guards, nested_choice_calcs.py:134-148. -/
def floatExpScaled (L : MathLib A) (lam : Fin m → Fl A) (nest : Fin n → Fin m) (index : Fin n → Fl A)
    (r : Fin n) : Fl A :=
  ((floatScaledIndex lam nest index r).exp L).guardPos.guardZero

/-- `ind_exp_sums_per_nest` with its guard, nested_choice_calcs.py:155-164. -/
def floatNestSum (L : MathLib A) (lam : Fin m → Fl A) (obs : Fin n → O) (nest : Fin n → Fin m)
    (index : Fin n → Fl A) (o : O) (k : Fin m) : Fl A :=
  (Fl.sum (((rowsOfObs obs o).filter fun r => nest r = k).map fun r =>
    (Fl.round A 1).mul ((Fl.round A 1).mul (floatExpScaled L lam nest index r)))).guardPos

/-- `long_exp_sums`, nested_choice_calcs.py:171-181. -/
def floatLongSum (L : MathLib A) (lam : Fin m → Fl A) (obs : Fin n → O) (nest : Fin n → Fin m)
    (index : Fin n → Fl A) (r : Fin n) : Fl A :=
  (floatNestSum L lam obs nest index (obs r) (nest r)).pick.pick

/-- `ind_denom` with its guards, nested_choice_calcs.py:184-192. -/
def floatNestedDenominator (L : MathLib A) (lam : Fin m → Fl A) (obs : Fin n → O) (nest : Fin n → Fin m)
    (index : Fin n → Fl A) (o : O) : Fl A :=
  (Fl.sum ((List.finRange m).map fun k =>
    (floatNestSum L lam obs nest index o k).pow L (lam k))).guardPos.guardZero

/-- `long_numerators` with its guards, nested_choice_calcs.py:200-208. -/
def floatNestedNumerator (L : MathLib A) (lam : Fin m → Fl A) (obs : Fin n → O) (nest : Fin n → Fin m)
    (index : Fin n → Fl A) (r : Fin n) : Fl A :=
  ((floatExpScaled L lam nest index r).mul
    ((floatLongSum L lam obs nest index r).pow L ((lam (nest r)).pick.sub (.round A 1)))).guardPos.guardZero

/-- `long_probs`, nested_choice_calcs.py:194-213. -/
def floatNestedProbs (L : MathLib A) (lam : Fin m → Fl A) (obs : Fin n → O) (nest : Fin n → Fin m)
    (index : Fin n → Fl A) (r : Fin n) : Fl A :=
  ((floatNestedNumerator L lam obs nest index r).div
    (floatNestedDenominator L lam obs nest index (obs r)).pick).guardZero

/-- `prob_given_nest`, nested_choice_calcs.py:244-247. -/
def floatProbGivenNest (L : MathLib A) (lam : Fin m → Fl A) (obs : Fin n → O) (nest : Fin n → Fin m)
    (index : Fin n → Fl A) (r : Fin n) : Fl A :=
  ((floatExpScaled L lam nest index r).div (floatLongSum L lam obs nest index r)).guardZero

end

end Pylogit
