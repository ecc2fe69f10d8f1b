import Verif.Model.Boot

/-!
# Specification vocabulary for histories of calls on a bootstrap object
-/

namespace Pylogit.Spec

variable {n : ℕ} {R O C T : Type}

/-- In the history `h`, `t` is the latest effect: some call `c` had effect `t` (given the calls before it)
and no later call had an effect. -/
def IsLatest (effect : List C → C → T → Prop) (h : List C) (t : T) : Prop :=
  ∃ before c after, h = before ++ c :: after ∧ effect before c t ∧
    ∀ b c' a, after = b ++ c' :: a → ∀ t', ¬ effect (before ++ c :: b) c' t'

/-- The replicates of the last completed `generate_bootstrap_replicates`. -/
def lastBootstrap (h : List (BootCall R O n)) : Option (List (Fin n → ℝ)) :=
  h.reverse.findSome? fun
    | .bootstrap (.ok r) => some r
    | _ => none

/-- The replicates of the last completed `generate_jackknife_replicates`. -/
def lastJackknife (h : List (BootCall R O n)) : Option (List (Fin n → ℝ)) :=
  h.reverse.findSome? fun
    | .jackknife (.ok r) => some r
    | _ => none

/-- `t` is the frame of the intervals `ci` at the percentage `conf`: the names of the parameters as row
labels, the formatted tail percentages as column labels, the lower and the upper end in each row. -/
def TableOf (env : BootEnv) (names : Fin n → String) (conf : PyVal ℝ)
    (ci : Fin n → Except Err (ℝ × ℝ)) (t : IntervalTable n) : Prop :=
  ∃ c : ℝ, conf = .num c ∧ t.index = names ∧
    t.columns = [env.fmt ((100 - c) / 2), env.fmt (100 - (100 - c) / 2)] ∧
    ∀ p, ∃ lo hi, ci p = .ok (lo, hi) ∧ t.rows p = [lo, hi]

/-- `t` is the frame of percentile intervals of the replicates. -/
def PercentileTable (env : BootEnv) (names : Fin n → String) (reps : List (Fin n → ℝ))
    (conf : PyVal ℝ) (t : IntervalTable n) : Prop :=
  TableOf env names conf (calcPercentileInterval (fun p => reps.map fun row => row p) conf) t

/-- `t` is the frame of BCa intervals of the replicates around the estimate. -/
def BcaTable (env : BootEnv) (names : Fin n → String) (mle : Fin n → ℝ)
    (reps jack : List (Fin n → ℝ)) (conf : PyVal ℝ) (t : IntervalTable n) : Prop :=
  TableOf env names conf (calcBcaInterval env.ppf env.cdf (fun p => reps.map fun row => row p)
    (fun p => jack.map fun row => row p) mle conf) t

/-- `t` is the frame of ABC intervals of the model refitted with weights. -/
def AbcTable [Fintype O] [DecidableEq O] (env : BootEnv) (names : Fin n → String) (mle : Fin n → ℝ)
    (call : AbcCall R O n) (conf : PyVal ℝ) (t : IntervalTable n) : Prop :=
  ∃ m ci, call.model = some m ∧
    calcAbcInterval env.ppf env.cdf m mle conf call.epsilon = .ok ci ∧
    TableOf env names conf (fun p => .ok (ci p)) t

/-- The percentage of a call that asks for percentile intervals. -/
def asksPercentile : BootCall R O n → Option (PyVal ℝ)
  | .percentile c => some c
  | .conf c t _ => if t = "pi" ∨ t = "all" then some c else none
  | _ => none

/-- The percentage of a call that asks for BCa intervals. -/
def asksBca : BootCall R O n → Option (PyVal ℝ)
  | .bca c => some c
  | .conf c t _ => if t = "bca" ∨ t = "all" then some c else none
  | _ => none

/-- The combined frame made of three frames: six columns, labelled by the kind of interval and the tail
percentage, each pair of columns with the values of its kind. -/
def CombinedOf (env : BootEnv) (names : Fin n → String) (c : ℝ) (pi bca abc : IntervalTable n)
    (t : CombinedTable n) : Prop :=
  let lo := env.fmt ((100 - c) / 2)
  let hi := env.fmt (100 - (100 - c) / 2)
  t.index = names ∧
  t.columns = [("percentile_interval", lo), ("percentile_interval", hi),
    ("BCa_interval", lo), ("BCa_interval", hi), ("ABC_interval", lo), ("ABC_interval", hi)] ∧
  ∀ p, ∃ x1 x2 x3 x4 x5 x6, pi.rows p = [x1, x2] ∧ bca.rows p = [x3, x4] ∧ abc.rows p = [x5, x6] ∧
    t.rows p = [x1, x2, x3, x4, x5, x6]

/-- After the calls `before`, the call `c` computes the percentile frame `t`: it asks for one, and `t` is
the frame of the replicates generated last. -/
def PercentileEffect (env : BootEnv) (names : Fin n → String) (before : List (BootCall R O n))
    (c : BootCall R O n) (t : IntervalTable n) : Prop :=
  ∃ conf reps, asksPercentile c = some conf ∧ lastBootstrap before = some reps ∧
    PercentileTable env names reps conf t

/-- After the calls `before`, the call `c` computes the BCa frame `t`. -/
def BcaEffect (env : BootEnv) (names : Fin n → String) (mle : Fin n → ℝ)
    (before : List (BootCall R O n)) (c : BootCall R O n) (t : IntervalTable n) : Prop :=
  ∃ conf reps jack, asksBca c = some conf ∧ lastBootstrap before = some reps ∧
    lastJackknife before = some jack ∧ BcaTable env names mle reps jack conf t

/-- After the calls `before`, the call `c` computes the ABC frame `t`; a call for all intervals gets there
only when the BCa intervals could be computed. -/
def AbcEffect [Fintype O] [DecidableEq O] (env : BootEnv) (names : Fin n → String) (mle : Fin n → ℝ)
    (before : List (BootCall R O n)) (c : BootCall R O n) (t : IntervalTable n) : Prop :=
  ∃ conf call, AbcTable env names mle call conf t ∧
    (c = .abc conf call ∨ c = .conf conf "abc" call ∨
      c = .conf conf "all" call ∧ ∃ t', BcaEffect env names mle before c t')

/-- After the calls `before`, the call `c` computes the combined frame `t`: it asks for all intervals, and
all three could be computed. -/
def AllEffect [Fintype O] [DecidableEq O] (env : BootEnv) (names : Fin n → String) (mle : Fin n → ℝ)
    (before : List (BootCall R O n)) (c : BootCall R O n) (t : CombinedTable n) : Prop :=
  ∃ conf call pi bca abc, c = .conf (.num conf) "all" call ∧
    PercentileEffect env names before c pi ∧ BcaEffect env names mle before c bca ∧
    AbcTable env names mle call (.num conf) abc ∧ CombinedOf env names conf pi bca abc t

end Pylogit.Spec
