import Verif.Model.FitPredict

/-!
# Specification vocabulary for predictions by a fitted model
-/

namespace Pylogit.Spec

/-- The results `r` of a fit of a logit-type model that ended with the vector `x`: the parts of `x`, and
the probabilities at `x`. -/
structure FittedAt (m : ChoiceModel ℝ) (x : List ℝ) (r : FitResults) : Prop where
  split : r.split = splitParamVec m.cls (fitDims m) x
  probs : ∃ c l, fitProbs m x = .ok (c, l) ∧ r.chosenProbs = (List.ofFn c).map (fun p => [p]) ∧
    r.longProbs = (List.ofFn l).map fun p => [p]

/-- The same for a nested logit model with the given nests. -/
structure NestedFittedAt (m : ChoiceModel ℝ) (nestSpec : List (String × List ℝ)) (x : List ℝ)
    (r : FitResults) : Prop where
  split : r.split = splitNested nestSpec.length x
  probs : ∃ c l, fitNestedProbs m nestSpec x = .ok (c, l) ∧
    r.chosenProbs = (List.ofFn c).map (fun p => [p]) ∧ r.longProbs = (List.ofFn l).map fun p => [p]

/-- Predicted probabilities of the choices, as a list. -/
def chosenList {a b : ℕ} : ProbResult (Fin a) (Fin b) Unit → Option (List ℝ)
  | .both c _ => some (List.ofFn fun o => c o ())
  | .chosen c => some (List.ofFn fun o => c o ())
  | .long _ => none

/-- Predicted probabilities of the rows, as a list. -/
def longList {a b : ℕ} : ProbResult (Fin a) (Fin b) Unit → Option (List ℝ)
  | .both _ l => some (List.ofFn fun r => l r ())
  | .long l => some (List.ofFn fun r => l r ())
  | .chosen _ => none

/-- The same for the nested logit model. -/
def nestedChosenList {a b c : ℕ} : NestedResult (Fin a) (Fin b) (Fin c) → Option (List ℝ)
  | .both c _ => some (List.ofFn c)
  | .chosen c => some (List.ofFn c)
  | _ => none

/-- The same for the nested logit model. -/
def nestedLongList {a b c : ℕ} : NestedResult (Fin a) (Fin b) (Fin c) → Option (List ℝ)
  | .both _ l => some (List.ofFn l)
  | .long l => some (List.ofFn l)
  | _ => none

/-- A prediction of a model object from its stored parameters returns the probabilities it has stored as
fitted: those of all rows, those of the choices, or both. -/
structure Reproduces (env : Env ℝ) (m : ChoiceModel ℝ) (s : FitAttrs) (df : Frame ℝ) : Prop where
  both : ∃ p res c l, storedArrays s = .ok p ∧
    predict env m p df none true (some m.args.choiceCol) = .ok res ∧
    chosenList res = some c ∧ longList res = some l ∧
    s.fittedProbs = some (c.map fun p => [p]) ∧ s.longFittedProbs = some (l.map fun p => [p])
  long : ∃ p res l, storedArrays s = .ok p ∧ predict env m p df none true none = .ok res ∧
    longList res = some l ∧ s.longFittedProbs = some (l.map fun p => [p])
  chosen : ∃ p res c, storedArrays s = .ok p ∧
    predict env m p df none false (some m.args.choiceCol) = .ok res ∧
    chosenList res = some c ∧ s.fittedProbs = some (c.map fun p => [p])

/-- The same for a nested logit model, whose `predict` returns one of the two. -/
structure NestedReproduces (env : Env ℝ) (m : ChoiceModel ℝ) (nestSpec : List (String × List ℝ))
    (s : FitAttrs) (df : Frame ℝ) : Prop where
  long : ∀ cc, cc = none ∨ cc = some m.args.choiceCol → ∃ p res l, storedArrays s = .ok p ∧
    predictNestedFrame env m nestSpec p (addIntercept m.args.specification df) none true cc = .ok res ∧
    nestedLongList res = some l ∧ s.longFittedProbs = some (l.map fun p => [p])
  chosen : ∃ p res c, storedArrays s = .ok p ∧
    predictNestedFrame env m nestSpec p (addIntercept m.args.specification df) none false
      (some m.args.choiceCol) = .ok res ∧
    nestedChosenList res = some c ∧ s.fittedProbs = some (c.map fun p => [p])

end Pylogit.Spec
