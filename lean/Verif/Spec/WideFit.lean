import Verif.Spec.Predict
import Verif.Model.LongTable

/-!
# Specification vocabulary for models of wide data

The utilities and the log-likelihood of a wide table (one row per observation), read directly from its
columns.
-/

namespace Pylogit.Spec

/-- What the user of `convert_wide_to_long` says about a wide table: individual variables, alternative-specific
variables with the column of each alternative, the availability columns, the id and choice columns, and the
name of the new column of alternative ids. -/
structure WideSpec where
  indVars : List String
  altSpecific : List (String × List (ℝ × String))
  avail : List (ℝ × String)
  obsCol : String
  choiceCol : String
  altName : Option String

/-- The value of a variable for observation `i` and alternative `a`, from the wide table.  A variable that
is described nowhere is the constant: models have no other such variable than `intercept`. -/
noncomputable def WideSpec.value (d : WideSpec) (w : Frame ℝ) (i : Fin w.numRows) (a : ℝ) (v : String) : ℝ :=
  if v = d.obsCol then w.val d.obsCol i
  else if v = d.altName.getD "alt_id" then a
  else if v = d.choiceCol then (if w.val d.choiceCol i = a then 1 else 0)
  else if v ∈ d.indVars then w.val v i
  else match d.altSpecific.lookup v with
    | some cols => ((cols.lookup a).map fun c => w.val c i).getD 0
    | none => 1

/-- The value of a described design column for alternative `a`, given the values of the variables. -/
noncomputable def ColDesc.valueAt (a : ℝ) (x : String → ℝ) : ColDesc ℝ → ℝ
  | .same v => x v
  | .alt v b => if a = b then x v else 0
  | .group v l => if a ∈ l then x v else 0

/-- The index of observation `i` and alternative `a`: each coefficient times its described column. -/
noncomputable def WideSpec.index (d : WideSpec) (w : Frame ℝ) (cols : List (ColDesc ℝ)) (beta : List ℝ)
    (i : Fin w.numRows) (a : ℝ) : ℝ :=
  ((cols.zip beta).map fun p => p.1.valueAt a (d.value w i a) * p.2).sum

/-- The alternatives available to observation `i`. -/
noncomputable def WideSpec.choiceSet (d : WideSpec) (w : Frame ℝ) (i : Fin w.numRows) : List ℝ :=
  (d.avail.filter fun ac => decide (w.val ac.2 i = 1)).map Prod.fst

/-- The log-likelihood of a wide table under utilities `u`: over the observations, the logarithm of the logit
probability of the choice among the available alternatives. -/
noncomputable def WideSpec.logLik (d : WideSpec) (w : Frame ℝ) (u : Fin w.numRows → ℝ → ℝ) : ℝ :=
  ∑ i, Real.log (Real.exp (u i (w.val d.choiceCol i)) /
    ((d.choiceSet w i).map fun a => Real.exp (u i a)).sum)

/-- `Σ exp(u / λ_n)` over the alternatives of nest `n` available to observation `i`. -/
noncomputable def WideSpec.nestSum (d : WideSpec) (w : Frame ℝ) (nests : List (String × List ℝ))
    (lam : Fin nests.length → ℝ) (u : Fin w.numRows → ℝ → ℝ) (i : Fin w.numRows) (n : Fin nests.length) : ℝ :=
  (((d.choiceSet w i).filter fun a => decide (a ∈ (nests.get n).2)).map fun a => Real.exp (u i a / lam n)).sum

/-- The nested logit probability that observation `i` chooses alternative `a`: the probability of the nest of `a`
among the nests with an available alternative, times the probability of `a` within its nest. -/
noncomputable def WideSpec.nestedProb (d : WideSpec) (w : Frame ℝ) (nests : List (String × List ℝ))
    (lam : Fin nests.length → ℝ) (u : Fin w.numRows → ℝ → ℝ) (i : Fin w.numRows) (a : ℝ) : ℝ :=
  ∑ n, if a ∈ (nests.get n).2 then
    d.nestSum w nests lam u i n ^ lam n /
      (∑ m, if ∃ b ∈ d.choiceSet w i, b ∈ (nests.get m).2 then d.nestSum w nests lam u i m ^ lam m else 0) *
      (Real.exp (u i a / lam n) / d.nestSum w nests lam u i n)
  else 0

/-- The nested logit log-likelihood of a wide table under utilities `u`. -/
noncomputable def WideSpec.nestedLogLik (d : WideSpec) (w : Frame ℝ) (nests : List (String × List ℝ))
    (lam : Fin nests.length → ℝ) (u : Fin w.numRows → ℝ → ℝ) : ℝ :=
  ∑ i, Real.log (d.nestedProb w nests lam u i (w.val d.choiceCol i))

end Pylogit.Spec
