import Verif.Model.BootstrapAbc
import Verif.Model.BootstrapMle

/-!
# Model of the class `Boot` (`bootstrap.py`): stored replicates, stored intervals, gradient norms

The object has `n` parameters.  A method that raises half-way keeps what it has stored so far, so every
method maps a state to a new state and an outcome.  The formatting of percentages (`'{:.3g}%'`) is a
parameter, like the normal distribution and its quantiles.  Printing and progress bars are not
modelled.
-/

open Finset Matrix

namespace Pylogit

noncomputable section

variable {n : ℕ} {R O P V : Type}

/-- The external functions the interval methods use: `norm.ppf`, `norm.cdf` and
`lambda x: '{:.3g}%'.format(x)`. -/
structure BootEnv where
  ppf : ℝ → ℝ
  cdf : ℝ → ℝ
  fmt : ℝ → String

/-- The frame of one kind of interval: row labels, the two column labels and one row per parameter. -/
structure IntervalTable (n : ℕ) where
  index : Fin n → String
  columns : List String
  rows : Fin n → List ℝ

/-- The frame of all intervals: its columns have two levels of labels. -/
structure CombinedTable (n : ℕ) where
  index : Fin n → String
  columns : List (String × String)
  rows : Fin n → List ℝ

/-- The attributes of a `Boot` object, bootstrap.py:162-184 (`model_obj` and the log-likelihoods are not
part of it: the methods below do not change them).  A frame of replicates is the list of its rows. -/
structure BootState (n : ℕ) where
  names : Fin n → String
  mleParams : Fin n → ℝ
  bootstrapReplicates : Option (List (Fin n → ℝ))
  jackknifeReplicates : Option (List (Fin n → ℝ))
  percentileInterval : Option (IntervalTable n)
  bcaInterval : Option (IntervalTable n)
  abcInterval : Option (IntervalTable n)
  allIntervals : Option (CombinedTable n)

/-- `Boot.__init__`, bootstrap.py:162-184. -/
def BootState.init (names : Fin n → String) (mle : Fin n → ℝ) : BootState n :=
  ⟨names, mle, none, none, none, none, none, none⟩

/-- The values of a vectorised calculation, or the exception of its first failing entry. -/
def collect {β : Type} : (n : ℕ) → (Fin n → Except Err β) → Except Err (Fin n → β)
  | 0, _ => .ok fun i => i.elim0
  | n + 1, f => do
    let x ← f 0
    let xs ← collect n fun i => f i.succ
    .ok (Fin.cons x xs)

/-- `100.0 - conf_percentage` for an argument of any type, bootstrap.py:685, 722, 774 and 858
(`get_alpha_from_conf_percentage`): the subtraction, or the formatting after it, fails for anything but
a number. -/
def alphaOf : PyVal ℝ → Except Err ℝ
  | .num c => .ok (alphaFromConf c)
  | _ => .error .typeError

/-- `single_column_names`, bootstrap.py:687-689, 724-726, 776-778 and `endpoint_names`, 863-864. -/
def endpointNames (env : BootEnv) (alpha : ℝ) : List String :=
  [env.fmt (alpha / 2), env.fmt (100 - alpha / 2)]

/-- `self.<attr>.values` of an attribute that may be `None`. -/
def attrValues {β : Type} : Option β → Except Err β
  | some b => .ok b
  | none => .error .attributeError

/-- `pd.DataFrame(conf_intervals.T, index=self.mle_params.index, columns=single_column_names)`,
bootstrap.py:695-698, 735-737 and 788-790. -/
def intervalFrame (s : BootState n) (columns : List String) (ci : Fin n → ℝ × ℝ) : IntervalTable n :=
  ⟨s.names, columns, fun p => [(ci p).1, (ci p).2]⟩

/-- The column of replicates of parameter `p`. -/
def repColumn (reps : List (Fin n → ℝ)) (p : Fin n) : List ℝ := reps.map fun row => row p

/-- `self.x = value`, or the exception raised while computing the value. -/
def storeResult {σ τ : Type} (s : σ) (r : Except Err τ) (set : τ → σ) : σ × Except Err Unit :=
  match r with
  | .ok t => (set t, .ok ())
  | .error e => (s, .error e)

/-- The frame computed by `Boot.calc_percentile_interval`, bootstrap.py:684-698. -/
def percentileFrame (env : BootEnv) (s : BootState n) (conf : PyVal ℝ) :
    Except Err (IntervalTable n) := do
  let alpha ← alphaOf conf
  let columns := endpointNames env alpha
  let reps ← attrValues s.bootstrapReplicates
  let ci ← collect n (calcPercentileInterval (repColumn reps) conf)
  .ok (intervalFrame s columns ci)

/-- `Boot.calc_percentile_interval`, bootstrap.py:666-699. -/
def BootState.calcPercentile (env : BootEnv) (s : BootState n) (conf : PyVal ℝ) :
    BootState n × Except Err Unit :=
  storeResult s (percentileFrame env s conf) fun t => { s with percentileInterval := some t }

/-- The frame computed by `Boot.calc_bca_interval`, bootstrap.py:721-737. -/
def bcaFrame (env : BootEnv) (s : BootState n) (conf : PyVal ℝ) :
    Except Err (IntervalTable n) := do
  let alpha ← alphaOf conf
  let columns := endpointNames env alpha
  let reps ← attrValues s.bootstrapReplicates
  let jack ← attrValues s.jackknifeReplicates
  let ci ← collect n
    (calcBcaInterval env.ppf env.cdf (repColumn reps) (repColumn jack) s.mleParams conf)
  .ok (intervalFrame s columns ci)

/-- `Boot.calc_bca_interval`, bootstrap.py:701-738. -/
def BootState.calcBca (env : BootEnv) (s : BootState n) (conf : PyVal ℝ) :
    BootState n × Except Err Unit :=
  storeResult s (bcaFrame env s conf) fun t => { s with bcaInterval := some t }

/-- `init_vals`, `epsilon` and `**fit_kwargs` of the ABC calculation: the fit they determine as a function
of the weights, or `none` when `init_vals` is `None`. -/
structure AbcCall (R O : Type) (n : ℕ) where
  model : Option (AbcModel R O (Fin n))
  epsilon : ℝ

variable [Fintype O] [DecidableEq O]

/-- `abc.calc_abc_interval` for `init_vals` that may be `None`: after the check of the percentage,
`init_vals.shape` is read at bootstrap_abc.py:187. -/
def abcIntervals (env : BootEnv) (mle : Fin n → ℝ) (conf : PyVal ℝ) (call : AbcCall R O n) :
    Except Err (Fin n → ℝ × ℝ) :=
  match call.model with
  | some m => calcAbcInterval env.ppf env.cdf m mle conf call.epsilon
  | none => do
    let _ ← checkConfPercentage conf
    .error .attributeError

/-- The frame computed by `Boot.calc_abc_interval`, bootstrap.py:774-790. -/
def abcFrame (env : BootEnv) (s : BootState n) (conf : PyVal ℝ) (call : AbcCall R O n) :
    Except Err (IntervalTable n) := do
  let alpha ← alphaOf conf
  let columns := endpointNames env alpha
  let ci ← abcIntervals env s.mleParams conf call
  .ok (intervalFrame s columns ci)

/-- `Boot.calc_abc_interval`, bootstrap.py:740-791. -/
def BootState.calcAbc (env : BootEnv) (s : BootState n) (conf : PyVal ℝ) (call : AbcCall R O n) :
    BootState n × Except Err Unit :=
  storeResult s (abcFrame env s conf call) fun t => { s with abcInterval := some t }

/-- One statement after another: the second is not reached when the first raises. -/
def seqSteps {σ : Type} (first second : σ → σ × Except Err Unit) (s : σ) : σ × Except Err Unit :=
  match first s with
  | (s', .ok ()) => second s'
  | (s', .error e) => (s', .error e)

/-- The frame of all intervals, bootstrap.py:857-877: the values of the three frames side by side,
`itertools.product` of the names of the types and of the endpoints as column labels. -/
def combinedFrame (env : BootEnv) (s : BootState n) (conf : PyVal ℝ) :
    Except Err (CombinedTable n) := do
  let alpha ← alphaOf conf
  let typeNames := ["percentile_interval", "BCa_interval", "ABC_interval"]
  let columns := typeNames.flatMap fun t => (endpointNames env alpha).map fun e => (t, e)
  let pi ← attrValues s.percentileInterval
  let bca ← attrValues s.bcaInterval
  let abc ← attrValues s.abcInterval
  .ok ⟨s.names, columns, fun p => pi.rows p ++ bca.rows p ++ abc.rows p⟩

/-- `Boot.calc_conf_intervals`, bootstrap.py:793-882. -/
def BootState.calcConf (env : BootEnv) (conf : PyVal ℝ) (intervalType : String)
    (call : AbcCall R O n) (s : BootState n) : BootState n × Except Err Unit :=
  if intervalType = "pi" then s.calcPercentile env conf
  else if intervalType = "bca" then s.calcBca env conf
  else if intervalType = "abc" then s.calcAbc env conf call
  else if intervalType = "all" then
    seqSteps (fun s => s.calcPercentile env conf)
      (seqSteps (fun s => s.calcBca env conf)
        (seqSteps (fun s => s.calcAbc env conf call)
          fun s => storeResult s (combinedFrame env s conf) fun t =>
            { s with allIntervals := some t })) s
  else (s, .error .valueError)

/-- The calls on a `Boot` object that change the modelled attributes.  For the generation of replicates
the call carries what the estimations gave (`generateBootstrapReplicates`,
`generateJackknifeReplicates`). -/
inductive BootCall (R O : Type) (n : ℕ) where
  | bootstrap (result : Except Err (List (Fin n → ℝ)))
  | jackknife (result : Except Err (List (Fin n → ℝ)))
  | percentile (conf : PyVal ℝ)
  | bca (conf : PyVal ℝ)
  | abc (conf : PyVal ℝ) (call : AbcCall R O n)
  | conf (conf : PyVal ℝ) (intervalType : String) (call : AbcCall R O n)

/-- One call.  The replicates are stored at bootstrap.py:352-354 and 492-493, after all estimations. -/
def BootState.step (env : BootEnv) (s : BootState n) :
    BootCall R O n → BootState n × Except Err Unit
  | .bootstrap r => storeResult s r fun x => { s with bootstrapReplicates := some x }
  | .jackknife r => storeResult s r fun x => { s with jackknifeReplicates := some x }
  | .percentile c => s.calcPercentile env c
  | .bca c => s.calcBca env c
  | .abc c call => s.calcAbc env c call
  | .conf c t call => s.calcConf env c t call

/-- A sequence of calls, exceptions being caught by the caller. -/
def BootState.run (env : BootEnv) (s : BootState n) (h : List (BootCall R O n)) : BootState n :=
  h.foldl (fun s c => (s.step env c).1) s

/-! ## Gradient norms -/

/-- `create_estimation_obj`, construct_estimator.py:55-120, after the choice of the class: the checks of the
constructor (estimation.py:110-115) and then the object `mk ridge constrained_pos weights`. -/
def createEstimationObj [LinearOrder V] [AddGroup V] (obsIds : List V) (ridge : Option (PyVal ℝ))
    (constrained : Option (List P)) (weightsArg : WeightsArg) (weights : Option (R → ℝ))
    (mk : Option ℝ → Option (R → ℝ) → Option (List P) → Estimator P) : Except Err (Estimator P) := do
  estimationChecks ridge obsIds weightsArg
  let ridgeVal : Option ℝ := match ridge with
    | some (.num x) => some x
    | _ => none
  .ok (mk ridgeVal weights constrained)

/-- `np.linalg.norm` of a vector. -/
def euclideanNorm [Fintype P] (g : P → ℝ) : ℝ := Real.sqrt (∑ i, g i ^ 2)

/-- `calc_gradient_norm_for_replicates`, bootstrap.py:596-664, for the estimation object (or the
exception) that `create_estimation_obj` gives and the two sets of replicates. -/
def gradientNormForReplicates [Fintype P] (kwarg : String) (est : Except Err (Estimator P))
    (boot jack : Option (List (P → ℝ))) : Except Err (List ℝ) := do
  ensureReplicatesKwarg kwarg
  let e ← est
  let reps ← attrValues (if kwarg = "bootstrap" then boot else jack)
  .ok (reps.map fun x => euclideanNorm (e.gradient x))

end

end Pylogit
