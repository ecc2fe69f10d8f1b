import Verif.Model.Float

/-!
# Model of the multinomial logit on floating point numbers

Utilities, log-likelihood and gradient of the multinomial logit on the floating point numbers of
`Verif.Model.Float`.  The probabilities are those of that module.  Products of dense arrays are computed by a
library for linear algebra, which adds up numbers in an order of its own; so here they are relations that
allow every order.  Simplification: every product and every sum is rounded (no fused operations).
-/

namespace Pylogit

variable {A : FloatFormat} {n k : ℕ} {O : Type} [DecidableEq O]

/-- `x` is computed from the numbers of a non-empty list by adding them up in some order. -/
inductive AddedUp : List (Fl A) → Fl A → Prop
  | one (x : Fl A) : AddedUp [x] x
  | add {l l' : List (Fl A)} {x y : Fl A} : AddedUp l x → AddedUp l' y → AddedUp (l ++ l') (x.add y)
  | perm {l l' : List (Fl A)} {x : Fl A} : l.Perm l' → AddedUp l x → AddedUp l' x

/-- `x` is a computed sum of the numbers of a list. -/
def SumsTo (l : List (Fl A)) (x : Fl A) : Prop := l = [] ∧ x = .round A 0 ∨ AddedUp l x

/-- An entry of `design.dot(beta)`, choice_calcs.py:134, which the multinomial logit uses as it is
(conditional_logit.py:96-100). -/
def DotOf (x beta : Fin k → Fl A) (v : Fl A) : Prop := SumsTo (List.ofFn fun j => (x j).mul (beta j)) v

/-- `log_likelihood` of `calc_log_likelihood` without a ridge penalty, choice_calcs.py:261-276, from the utilities `t`
(without weights `weights = 1`). -/
def LogLikOf (L : MathLib A) (obs : Fin n → O) (t : Fin n → Fl A) (choice weights : Fin n → Fl A) (s : Fl A) : Prop :=
  SumsTo ((List.finRange n).map fun r => (choice r).mul ((weights r).mul ((floatLongProbs L obs t r).log L))) s

/-- An entry of `d_ll_d_beta` of `calc_gradient`, choice_calcs.py:424-431, for the column `x` of the design matrix.  `dh_dv`
is the sparse identity matrix (conditional_logit.py:180-187), so that `dh_dv.dot(design)` visits one entry per row. -/
def GradientOf (L : MathLib A) (obs : Fin n → O) (t : Fin n → Fl A) (choice weights x : Fin n → Fl A) (s : Fl A) : Prop :=
  SumsTo ((List.finRange n).map fun r =>
    ((weights r).mul ((choice r).sub (floatLongProbs L obs t r))).mul (x r).pick) s

end Pylogit
