import Verif.Model.Mixed
import Verif.Model.Sampler

/-!
# Model of the use of NumPy's global random number generator

The generator is external code: a state, a function that sets the state from a seed, and functions that
draw and move to the next state.  Nothing else is assumed about it.
-/

namespace Pylogit

noncomputable section

/-- The global generator of `np.random`.  `seed` is `np.random.seed` (which refuses negative numbers),
`normals m d` a call `scipy.stats.norm(loc=0.0, scale=1.0).rvs(size=(m, d))` and `choice ids size` a call
`np.random.choice(ids, size=size, replace=True)`. -/
structure Rng where
  State : Type
  seed : ℤ → Except Err State
  normals : (m d : ℕ) → State → (Fin m → Fin d → ℝ) × State
  choice : {ι : Type} → List ι → ℕ → State → List ι × State

/-- A Python object given as a seed or as a number of draws: an `int` (`True` and `False` are `int`s too), or
something else. -/
inductive IntArg where
  | int (k : ℤ)
  | other

variable (g : Rng)

/-- The loop of `get_normal_draws`, mixed_logit_calcs.py:85-86. -/
def normalsLoop (m d : ℕ) : ℕ → g.State → List (Fin m → Fin d → ℝ) × g.State
  | 0, s => ([], s)
  | n + 1, s =>
    let x := g.normals m d s
    let rest := normalsLoop m d n x.2
    (x.1 :: rest.1, rest.2)

/-- The seed of `get_normal_draws`, mixed_logit_calcs.py:78-84. -/
def seedNormals (seed : Option IntArg) (s : g.State) : Except Err g.State :=
  match seed with
  | none => .ok s
  | some .other => .error .assertionError
  | some (.int k) => if 0 < k then g.seed k else .error .assertionError

/-- `get_normal_draws`, mixed_logit_calcs.py:46-87, with all its checks and with the state of the generator.  The
numbers of units and of variables are lengths, as in all the calls of the package; the number of draws is
the user's. -/
def normalDraws (numMixers : ℕ) (numDraws : IntArg) (numVars : ℕ) (seed : Option IntArg) (s : g.State) :
    Except Err ((d : ℕ) × (List (Fin numMixers → Fin d → ℝ) × g.State)) :=
  match numDraws with
  | .other => .error .assertionError
  | .int k =>
    if 0 < numMixers ∧ 0 < k ∧ 0 < numVars then do
      let s ← seedNormals g seed s
      .ok ⟨k.toNat, normalsLoop g numMixers k.toNat numVars s⟩
    else .error .assertionError

/-- The mixed logit branch of `predict`, base_multinomial_cm_v2.py:1936-1960, with the draws it takes from the
generator and the state it leaves it in. -/
def mixedPredictRng {R O A K ι : Type} {m : ℕ} [Fintype R] [Fintype O] [Fintype K] (mixingPos : List K)
    (coefs : K ⊕ Fin mixingPos.length → ℝ) (design : Matrix R K ℝ) (altIDs : R → ι)
    (rowsToObs : Matrix R O ℝ) (rowsToAlts : Matrix R A ℝ) (rowsToMixers : Matrix R (Fin m) ℝ)
    (numDraws : IntArg) (seed : Option IntArg) (chosenRowToObs : Option (Matrix R O ℝ))
    (returnLongProbs : Bool) (s : g.State) : Except Err (((R → ℝ) ⊕ (O → ℝ)) × g.State) := do
  let draws ← normalDraws g m numDraws mixingPos.length seed s
  let p ← mixedPredict mixingPos coefs design altIDs rowsToObs rowsToAlts rowsToMixers draws.2.1
    chosenRowToObs returnLongProbs
  .ok (p, draws.2.2)

section Sampler

variable {ι κ V : Type}

/-- The seed of `create_cross_sectional_bootstrap_samples`, bootstrap_sampler.py:151-158. -/
def seedSampler (seed : Option IntArg) (s : g.State) : Except Err g.State :=
  match seed with
  | none => .ok s
  | some .other => .error .valueError
  | some (.int k) => g.seed k

/-- The loop of `create_cross_sectional_bootstrap_samples` over the alternatives, bootstrap_sampler.py:162-177: the
blocks of resampled ids, each before it is cut into rows, for the alternatives with the ids of the
observations that chose them. -/
def choiceLoop (numSamples : ℕ) : List (κ × List ι) → g.State → List (κ × List ι) × g.State
  | [], s => ([], s)
  | (a, ids) :: rest, s =>
    let x := g.choice ids (ids.length * numSamples) s
    let tail := choiceLoop numSamples rest x.2
    ((a, x.1) :: tail.1, tail.2)

/-- `create_cross_sectional_bootstrap_samples`, bootstrap_sampler.py:98-180, with the state of the generator. -/
def samplesRng [LinearOrder ι] [LinearOrder κ] [One V] [DecidableEq V] {n : ℕ} (obsIds : Fin n → ι)
    (altIds : Fin n → κ) (choice : Fin n → V) (numSamples : ℕ) (seed : Option IntArg) (s : g.State) :
    Except Err (List (List ι) × g.State) := do
  let chosen := relateObsIdsToChosenAlts obsIds altIds choice
  let s ← seedSampler g seed s
  let blocks := choiceLoop g numSamples chosen s
  .ok ((List.range numSamples).map fun i =>
    (chosen.zip blocks.1).flatMap fun b => reshapeRow b.2.2 b.1.2.length i, blocks.2)

end Sampler

end

end Pylogit
