import Verif.Spec.Boot
import Verif.Props.Intervals
import Verif.Props.BootstrapAbc
import Verif.Props.Concavity

/-!
# C77-C79: the bootstrap object
-/

set_option linter.unusedSectionVars false

open Finset Matrix

namespace Pylogit

open Spec

variable {n : ℕ} {R O C T S : Type}

/-! ## Histories -/

private lemma latest_concat (E : List C → C → T → Prop) (l : List C) (c : C) (t : T) :
    IsLatest E (l ++ [c]) t ↔ E l c t ∨ ((∀ t', ¬ E l c t') ∧ IsLatest E l t) := by
  constructor
  · rintro ⟨before, c0, after, he, hE, hno⟩
    rcases List.eq_nil_or_concat after with rfl | ⟨a, x, rfl⟩
    · obtain ⟨h1, h2⟩ := List.append_inj' he rfl
      simp only [List.cons.injEq, and_true] at h2
      subst h1; subst h2
      exact .inl hE
    · rw [List.concat_eq_append] at he hno
      rw [← List.cons_append, ← List.append_assoc] at he
      obtain ⟨h1, h2⟩ := List.append_inj' he rfl
      simp only [List.cons.injEq, and_true] at h2
      subst h1; subst h2
      refine .inr ⟨hno a c [] rfl, before, c0, a, rfl, hE, ?_⟩
      rintro b c' a' rfl
      exact hno b c' (a' ++ [c]) (by simp)
  · rintro (h | ⟨h, before, c0, after, rfl, hE, hno⟩)
    · exact ⟨l, c, [], rfl, h, fun b c' a hb => by simp at hb⟩
    · refine ⟨before, c0, after ++ [c], by simp, hE, ?_⟩
      intro b c' a hb
      rcases List.eq_nil_or_concat a with rfl | ⟨a', x, rfl⟩
      · obtain ⟨h1, h2⟩ := List.append_inj' hb rfl
        simp only [List.cons.injEq, and_true] at h2
        subst h1; subst h2
        exact h
      · rw [List.concat_eq_append, ← List.cons_append, ← List.append_assoc] at hb
        obtain ⟨h1, -⟩ := List.append_inj' hb rfl
        exact hno b c' a' h1

/-- A register that is overwritten by the effects of the calls holds the latest effect. -/
private lemma run_latest (step : S → C → S) (get : S → Option T) (eff : S → C → Option T)
    (hstep : ∀ s c, get (step s c) = (eff s c).or (get s)) (s0 : S) (h0 : get s0 = none)
    (E : List C → C → T → Prop) (hE : ∀ b c t, eff (b.foldl step s0) c = some t ↔ E b c t)
    (h : List C) (t : T) : get (h.foldl step s0) = some t ↔ IsLatest E h t := by
  induction h using List.reverseRecOn with
  | nil =>
    simp only [List.foldl_nil, h0]
    constructor
    · intro h; cases h
    · rintro ⟨b, c, a, h, -⟩; simp at h
  | append_singleton l c ih =>
    rw [List.foldl_append, List.foldl_cons, List.foldl_nil, hstep, latest_concat, ← ih]
    simp only [← hE]
    cases he : eff (List.foldl step s0 l) c with
    | some t' => simp
    | none => simp

private lemma collect_ok {β : Type} : ∀ (n : ℕ) (f : Fin n → Except Err β) (g : Fin n → β),
    collect n f = .ok g ↔ ∀ p, f p = .ok (g p)
  | 0, f, g => by
    simp only [collect, Except.ok.injEq]
    exact ⟨fun _ p => p.elim0, fun _ => funext fun p => p.elim0⟩
  | n + 1, f, g => by
    simp only [collect, bind, Except.bind]
    cases h0 : f 0 with
    | error e =>
      simp only [reduceCtorEq, false_iff]
      intro h
      have := h 0
      rw [h0] at this; cases this
    | ok x =>
      cases h1 : collect n fun i => f i.succ with
      | error e =>
        simp only [reduceCtorEq, false_iff]
        intro h
        rw [(collect_ok n _ fun i => g i.succ).2 fun p => h p.succ] at h1
        cases h1
      | ok xs =>
        have hxs := (collect_ok n _ xs).1 h1
        simp only [Except.ok.injEq]
        constructor
        · rintro rfl p
          refine Fin.cases ?_ (fun i => ?_) p
          · simpa using h0
          · simpa using hxs i
        · intro h
          funext p
          refine Fin.cases ?_ (fun i => ?_) p
          · have := h 0
            rw [h0] at this
            simpa using this
          · have := h i.succ
            rw [hxs i] at this
            simpa using this

variable [Fintype O] [DecidableEq O]

/-! ### What a call computes -/

private lemma tableOf_iff {env : BootEnv} (s : BootState n) (conf : PyVal ℝ)
    (f : Fin n → Except Err (ℝ × ℝ)) (t : IntervalTable n) :
    (∃ alpha ci, alphaOf conf = .ok alpha ∧ collect n f = .ok ci ∧
      intervalFrame s (endpointNames env alpha) ci = t) ↔ TableOf env s.names conf f t := by
  constructor
  · rintro ⟨alpha, ci, ha, hc, rfl⟩
    cases conf with
    | num c =>
      simp only [alphaOf, Except.ok.injEq] at ha
      subst ha
      refine ⟨c, rfl, rfl, rfl, fun p => ⟨(ci p).1, (ci p).2, ?_, rfl⟩⟩
      exact (collect_ok n f ci).1 hc p
    | _ => simp [alphaOf] at ha
  · rintro ⟨c, rfl, h1, h2, h3⟩
    choose lo hi h4 h5 using h3
    refine ⟨100 - c, fun p => (lo p, hi p), rfl, (collect_ok n _ _).2 h4, ?_⟩
    cases t
    simp only [intervalFrame, IntervalTable.mk.injEq] at *
    exact ⟨h1.symm, h2.symm, funext fun p => (h5 p).symm⟩

private lemma percentileFrame_iff (env : BootEnv) (s : BootState n) (conf : PyVal ℝ)
    (t : IntervalTable n) : percentileFrame env s conf = .ok t ↔
      ∃ reps, s.bootstrapReplicates = some reps ∧ PercentileTable env s.names reps conf t := by
  unfold PercentileTable
  simp only [← tableOf_iff]
  cases ha : alphaOf conf with
  | error e => simp [percentileFrame, ha, bind, Except.bind]
  | ok alpha =>
    cases hr : s.bootstrapReplicates with
    | none => simp [percentileFrame, ha, hr, bind, Except.bind, attrValues]
    | some reps =>
      cases hc : collect n (calcPercentileInterval (fun p => reps.map fun row => row p) conf) with
      | error e =>
        have : (repColumn reps) = fun p => reps.map fun row => row p := rfl
        simp [percentileFrame, ha, hr, bind, Except.bind, attrValues, this, hc]
      | ok ci =>
        have : (repColumn reps) = fun p => reps.map fun row => row p := rfl
        simp [percentileFrame, ha, hr, bind, Except.bind, attrValues, this, hc]

private lemma bcaFrame_iff (env : BootEnv) (s : BootState n) (conf : PyVal ℝ)
    (t : IntervalTable n) : bcaFrame env s conf = .ok t ↔
      ∃ reps jack, s.bootstrapReplicates = some reps ∧ s.jackknifeReplicates = some jack ∧
        BcaTable env s.names s.mleParams reps jack conf t := by
  unfold BcaTable
  simp only [← tableOf_iff]
  cases ha : alphaOf conf with
  | error e => simp [bcaFrame, ha, bind, Except.bind]
  | ok alpha =>
    cases hr : s.bootstrapReplicates with
    | none => simp [bcaFrame, ha, hr, bind, Except.bind, attrValues]
    | some reps =>
      cases hj : s.jackknifeReplicates with
      | none => simp [bcaFrame, ha, hr, hj, bind, Except.bind, attrValues]
      | some jack =>
        have e1 : (repColumn reps) = fun p => reps.map fun row => row p := rfl
        have e2 : (repColumn jack) = fun p => jack.map fun row => row p := rfl
        cases hc : collect n (calcBcaInterval env.ppf env.cdf (fun p => reps.map fun row => row p)
          (fun p => jack.map fun row => row p) s.mleParams conf) with
        | error e => simp [bcaFrame, ha, hr, hj, bind, Except.bind, attrValues, e1, e2, hc]
        | ok ci => simp [bcaFrame, ha, hr, hj, bind, Except.bind, attrValues, e1, e2, hc]

private lemma abcFrame_iff (env : BootEnv) (s : BootState n) (conf : PyVal ℝ) (call : AbcCall R O n)
    (t : IntervalTable n) : abcFrame env s conf call = .ok t ↔
      AbcTable env s.names s.mleParams call conf t := by
  unfold AbcTable
  simp only [← tableOf_iff]
  cases ha : alphaOf conf with
  | error e => simp [abcFrame, ha, bind, Except.bind]
  | ok alpha =>
    cases hm : call.model with
    | none =>
      simp only [abcFrame, ha, hm, bind, Except.bind, abcIntervals, reduceCtorEq, false_and,
        exists_false, iff_false]
      cases checkConfPercentage conf <;> simp
    | some m =>
      cases hc : calcAbcInterval env.ppf env.cdf m s.mleParams conf call.epsilon with
      | error e => simp [abcFrame, ha, hm, bind, Except.bind, abcIntervals, hc]
      | ok ci =>
        have : ∀ ci' : Fin n → ℝ × ℝ, collect n (fun p => (.ok (ci p) : Except Err (ℝ × ℝ))) =
            .ok ci' ↔ ci = ci' := by
          intro ci'
          rw [collect_ok]
          simp only [Except.ok.injEq]
          exact ⟨fun h => funext h, fun h p => congrFun h p⟩
        simp [abcFrame, ha, hm, bind, Except.bind, abcIntervals, hc, this]

/-- The combined frame of three given frames. -/
private noncomputable def combine3 (env : BootEnv) (names : Fin n → String) (alpha : ℝ)
    (t1 t2 t3 : IntervalTable n) : CombinedTable n :=
  ⟨names, ["percentile_interval", "BCa_interval", "ABC_interval"].flatMap fun t =>
    (endpointNames env alpha).map fun e => (t, e), fun p => t1.rows p ++ t2.rows p ++ t3.rows p⟩

private lemma alphaOf_of_percentileFrame {env : BootEnv} {s : BootState n} {conf : PyVal ℝ}
    {t : IntervalTable n} (h : percentileFrame env s conf = .ok t) :
    ∃ c, conf = .num c := by
  cases conf with
  | num c => exact ⟨c, rfl⟩
  | _ => simp [percentileFrame, alphaOf, bind, Except.bind] at h

private lemma calcConf_all (env : BootEnv) (conf : PyVal ℝ) (call : AbcCall R O n) (s : BootState n) :
    s.calcConf env conf "all" call =
      match percentileFrame env s conf with
      | .error e => (s, .error e)
      | .ok t1 => match bcaFrame env s conf with
        | .error e => ({ s with percentileInterval := some t1 }, .error e)
        | .ok t2 => match abcFrame env s conf call with
          | .error e => ({ s with percentileInterval := some t1, bcaInterval := some t2 }, .error e)
          | .ok t3 => ({ s with
              percentileInterval := some t1, bcaInterval := some t2, abcInterval := some t3,
              allIntervals := some (combine3 env s.names
                (match conf with | .num c => 100 - c | _ => 0) t1 t2 t3) }, .ok ()) := by
  unfold BootState.calcConf
  rw [if_neg (by decide), if_neg (by decide), if_neg (by decide), if_pos rfl]
  simp only [seqSteps, BootState.calcPercentile]
  cases h1 : percentileFrame env s conf with
  | error e => simp [storeResult]
  | ok t1 =>
    obtain ⟨c, rfl⟩ := alphaOf_of_percentileFrame h1
    simp only [storeResult, BootState.calcBca]
    have e2 : bcaFrame env { s with percentileInterval := some t1 } (.num c) =
        bcaFrame env s (.num c) := rfl
    rw [e2]
    cases h2 : bcaFrame env s (.num c) with
    | error e => simp
    | ok t2 =>
      simp only [BootState.calcAbc]
      have e3 : abcFrame env
          { s with percentileInterval := some t1, bcaInterval := some t2 } (.num c) call =
        abcFrame env s (.num c) call := rfl
      rw [e3]
      cases h3 : abcFrame env s (.num c) call with
      | error e => simp [storeResult]
      | ok t3 =>
        simp [storeResult, combinedFrame, alphaOf, bind, Except.bind, attrValues, combine3,
          alphaFromConf]

private lemma percentile_of_bca {env : BootEnv} {s : BootState n} {conf : PyVal ℝ}
    {t2 : IntervalTable n} (h : bcaFrame env s conf = .ok t2) :
    ∃ t1, percentileFrame env s conf = .ok t1 := by
  obtain ⟨reps, jack, hr, hj, c, rfl, -, -, hci⟩ := (bcaFrame_iff env s conf t2).1 h
  have key : ∀ p : Fin n, ∃ x, calcPercentileInterval (fun p => reps.map fun row => row p)
      (.num c) p = .ok x := by
    intro p
    obtain ⟨lo, hi, h1, -⟩ := hci p
    unfold calcBcaInterval at h1
    cases hc : checkConfPercentage (.num c) with
    | error e => simp [hc, bind, Except.bind] at h1
    | ok c' =>
      have hcc : 0 < c ∧ c < 100 := by
        by_contra hn
        simp [checkConfPercentage, hn] at hc
      by_cases hsh : shareBelow (reps.map fun row => row p) (s.mleParams p) ≤ 0 ∨
          1 ≤ shareBelow (reps.map fun row => row p) (s.mleParams p)
      · simp [hc, bind, Except.bind, hsh] at h1
      · have hne : (reps.map fun row => row p) ≠ [] := by
          intro h0
          apply hsh
          left
          rw [h0]
          simp [shareBelow]
        obtain ⟨lo, hi, h, -⟩ := percentile_interval (fun p : Fin n => reps.map fun row => row p) p
          hne hcc.1 hcc.2
        exact ⟨_, h⟩
  choose f hf using key
  exact ⟨intervalFrame s (endpointNames env (100 - c)) f, (percentileFrame_iff env s _ _).2
    ⟨reps, hr, (tableOf_iff s _ _ _).1 ⟨_, _, rfl, (collect_ok n _ f).2 hf, rfl⟩⟩⟩

/-! ### What a call changes -/

private lemma step_names (env : BootEnv) (s : BootState n) (c : BootCall R O n) :
    (s.step env c).1.names = s.names ∧ (s.step env c).1.mleParams = s.mleParams := by
  cases c with
  | bootstrap r => cases r <;> exact ⟨rfl, rfl⟩
  | jackknife r => cases r <;> exact ⟨rfl, rfl⟩
  | percentile c =>
    simp only [BootState.step, BootState.calcPercentile, storeResult]; split <;> exact ⟨rfl, rfl⟩
  | bca c => simp only [BootState.step, BootState.calcBca, storeResult]; split <;> exact ⟨rfl, rfl⟩
  | abc c call =>
    simp only [BootState.step, BootState.calcAbc, storeResult]; split <;> exact ⟨rfl, rfl⟩
  | conf c t call =>
    by_cases h4 : t = "all"
    · subst h4
      simp only [BootState.step, calcConf_all]
      split
      · exact ⟨rfl, rfl⟩
      · split
        · exact ⟨rfl, rfl⟩
        · split <;> exact ⟨rfl, rfl⟩
    · simp only [BootState.step, BootState.calcConf, BootState.calcPercentile, BootState.calcBca,
        BootState.calcAbc, storeResult, h4, if_false]
      split_ifs
      · split <;> exact ⟨rfl, rfl⟩
      · split <;> exact ⟨rfl, rfl⟩
      · split <;> exact ⟨rfl, rfl⟩
      · exact ⟨rfl, rfl⟩

private lemma step_boot (env : BootEnv) (s : BootState n) (c : BootCall R O n) :
    (s.step env c).1.bootstrapReplicates =
      (match c with | .bootstrap (.ok r) => some r | _ => none).or s.bootstrapReplicates := by
  cases c with
  | bootstrap r => cases r <;> rfl
  | jackknife r => cases r <;> rfl
  | percentile c =>
    simp only [BootState.step, BootState.calcPercentile, storeResult]; split <;> rfl
  | bca c => simp only [BootState.step, BootState.calcBca, storeResult]; split <;> rfl
  | abc c call =>
    simp only [BootState.step, BootState.calcAbc, storeResult]; split <;> rfl
  | conf c t call =>
    by_cases h4 : t = "all"
    · subst h4
      simp only [BootState.step, calcConf_all]
      split
      · rfl
      · split
        · rfl
        · split <;> rfl
    · simp only [BootState.step, BootState.calcConf, BootState.calcPercentile, BootState.calcBca,
        BootState.calcAbc, storeResult, h4, if_false]
      split_ifs
      · split <;> rfl
      · split <;> rfl
      · split <;> rfl
      · rfl

private lemma step_jack (env : BootEnv) (s : BootState n) (c : BootCall R O n) :
    (s.step env c).1.jackknifeReplicates =
      (match c with | .jackknife (.ok r) => some r | _ => none).or s.jackknifeReplicates := by
  cases c with
  | bootstrap r => cases r <;> rfl
  | jackknife r => cases r <;> rfl
  | percentile c =>
    simp only [BootState.step, BootState.calcPercentile, storeResult]; split <;> rfl
  | bca c => simp only [BootState.step, BootState.calcBca, storeResult]; split <;> rfl
  | abc c call =>
    simp only [BootState.step, BootState.calcAbc, storeResult]; split <;> rfl
  | conf c t call =>
    by_cases h4 : t = "all"
    · subst h4
      simp only [BootState.step, calcConf_all]
      split
      · rfl
      · split
        · rfl
        · split <;> rfl
    · simp only [BootState.step, BootState.calcConf, BootState.calcPercentile, BootState.calcBca,
        BootState.calcAbc, storeResult, h4, if_false]
      split_ifs
      · split <;> rfl
      · split <;> rfl
      · split <;> rfl
      · rfl

private lemma run_names (env : BootEnv) (h : List (BootCall R O n)) (s : BootState n) :
    (s.run env h).names = s.names ∧ (s.run env h).mleParams = s.mleParams := by
  induction h using List.reverseRecOn with
  | nil => exact ⟨rfl, rfl⟩
  | append_singleton l c ih =>
    simp only [BootState.run, List.foldl_append, List.foldl_cons, List.foldl_nil] at ih ⊢
    rw [(step_names env _ c).1, (step_names env _ c).2]
    exact ih

private lemma run_init_names (env : BootEnv) (h : List (BootCall R O n)) (names : Fin n → String)
    (mle : Fin n → ℝ) : ((BootState.init names mle).run env h).names = names ∧
      ((BootState.init names mle).run env h).mleParams = mle :=
  run_names env h _

/-- The stored bootstrap replicates are those of the last completed generation. -/
theorem run_bootstrap (env : BootEnv) (names : Fin n → String) (mle : Fin n → ℝ)
    (h : List (BootCall R O n)) :
    ((BootState.init names mle).run env h).bootstrapReplicates = lastBootstrap h := by
  induction h using List.reverseRecOn with
  | nil => rfl
  | append_singleton l c ih =>
    simp only [BootState.run, List.foldl_append, List.foldl_cons, List.foldl_nil] at ih ⊢
    rw [step_boot, ih]
    unfold lastBootstrap
    rw [List.reverse_append, List.reverse_singleton, List.singleton_append, List.findSome?_cons]
    rcases c with (_ | _) | (_ | _) | _ | _ | _ | _ <;> simp

/-- The stored jackknife replicates are those of the last completed generation. -/
theorem run_jackknife (env : BootEnv) (names : Fin n → String) (mle : Fin n → ℝ)
    (h : List (BootCall R O n)) :
    ((BootState.init names mle).run env h).jackknifeReplicates = lastJackknife h := by
  induction h using List.reverseRecOn with
  | nil => rfl
  | append_singleton l c ih =>
    simp only [BootState.run, List.foldl_append, List.foldl_cons, List.foldl_nil] at ih ⊢
    rw [step_jack, ih]
    unfold lastJackknife
    rw [List.reverse_append, List.reverse_singleton, List.singleton_append, List.findSome?_cons]
    rcases c with (_ | _) | (_ | _) | _ | _ | _ | _ <;> simp

/-! ## C77 -/

/-- The percentile frame a call computes in a state. -/
private noncomputable def percentileEff (env : BootEnv) (s : BootState n) (c : BootCall R O n) :
    Option (IntervalTable n) :=
  (asksPercentile c).bind fun conf => (percentileFrame env s conf).toOption

private lemma step_percentile (env : BootEnv) (s : BootState n) (c : BootCall R O n) :
    (s.step env c).1.percentileInterval = (percentileEff env s c).or s.percentileInterval := by
  cases c with
  | bootstrap r => cases r <;> rfl
  | jackknife r => cases r <;> rfl
  | percentile c =>
    simp only [BootState.step, BootState.calcPercentile, storeResult, percentileEff, asksPercentile,
      Option.bind_some]
    cases percentileFrame env s c <;> rfl
  | bca c =>
    simp only [BootState.step, BootState.calcBca, storeResult]; split <;> rfl
  | abc c call =>
    simp only [BootState.step, BootState.calcAbc, storeResult]; split <;> rfl
  | conf c t call =>
    by_cases h4 : t = "all"
    · subst h4
      simp only [BootState.step, calcConf_all, percentileEff, asksPercentile, or_true, if_true,
        Option.bind_some]
      cases percentileFrame env s c with
      | error e => rfl
      | ok t1 =>
        cases bcaFrame env s c with
        | error e => rfl
        | ok t2 => cases abcFrame env s c call <;> rfl
    · simp only [BootState.step, BootState.calcConf, BootState.calcPercentile, BootState.calcBca,
        BootState.calcAbc, storeResult, h4, if_false, percentileEff, asksPercentile, or_false]
      split_ifs
      · simp only [Option.bind_some]
        cases percentileFrame env s c <;> rfl
      · cases bcaFrame env s c <;> rfl
      · cases abcFrame env s c call <;> rfl
      · rfl

private lemma percentileEff_iff (env : BootEnv) (names : Fin n → String) (mle : Fin n → ℝ)
    (b : List (BootCall R O n)) (c : BootCall R O n) (t : IntervalTable n) :
    percentileEff env ((BootState.init names mle).run env b) c = some t ↔
      PercentileEffect env names b c t := by
  unfold percentileEff PercentileEffect
  cases asksPercentile c with
  | none => simp
  | some conf =>
    have := percentileFrame_iff env ((BootState.init names mle).run env b) conf t
    rw [run_bootstrap, (run_init_names env b names mle).1] at this
    simp only [Option.bind_some, Option.some.injEq]
    cases hp : percentileFrame env ((BootState.init names mle).run env b) conf with
    | error e => rw [hp] at this; simpa [Except.toOption] using this
    | ok x => rw [hp] at this; simpa [Except.toOption] using this

/-- **C77**, percentile intervals.  After any sequence of calls, completed or failed, the stored frame is the
one computed by the latest call that asked for percentile intervals and could compute them, from the
replicates that were the latest at that time. -/
theorem stored_percentile (env : BootEnv) (names : Fin n → String) (mle : Fin n → ℝ)
    (h : List (BootCall R O n)) (t : IntervalTable n) :
    ((BootState.init names mle).run env h).percentileInterval = some t ↔
      IsLatest (PercentileEffect env names) h t :=
  run_latest _ (fun s : BootState n => s.percentileInterval) (percentileEff env)
    (step_percentile env) (BootState.init names mle) rfl _ (percentileEff_iff env names mle) h t

/-- The BCa frame a call computes in a state. -/
private noncomputable def bcaEff (env : BootEnv) (s : BootState n) (c : BootCall R O n) :
    Option (IntervalTable n) :=
  (asksBca c).bind fun conf => (bcaFrame env s conf).toOption

private lemma step_bca (env : BootEnv) (s : BootState n) (c : BootCall R O n) :
    (s.step env c).1.bcaInterval = (bcaEff env s c).or s.bcaInterval := by
  cases c with
  | bootstrap r => cases r <;> rfl
  | jackknife r => cases r <;> rfl
  | percentile c =>
    simp only [BootState.step, BootState.calcPercentile, storeResult]; split <;> rfl
  | bca c =>
    simp only [BootState.step, BootState.calcBca, storeResult, bcaEff, asksBca, Option.bind_some]
    cases bcaFrame env s c <;> rfl
  | abc c call =>
    simp only [BootState.step, BootState.calcAbc, storeResult]; split <;> rfl
  | conf c t call =>
    by_cases h4 : t = "all"
    · subst h4
      simp only [BootState.step, calcConf_all, bcaEff, asksBca, or_true, if_true, Option.bind_some]
      cases h2 : bcaFrame env s c with
      | error e => cases percentileFrame env s c <;> rfl
      | ok t2 =>
        obtain ⟨t1, h1⟩ := percentile_of_bca h2
        rw [h1]
        cases abcFrame env s c call <;> rfl
    · simp only [BootState.step, BootState.calcConf, BootState.calcPercentile, BootState.calcBca,
        BootState.calcAbc, storeResult, h4, if_false, bcaEff, asksBca, or_false]
      by_cases h1 : t = "pi"
      · subst h1
        rw [if_pos rfl, if_neg (by decide)]
        cases percentileFrame env s c <;> rfl
      · rw [if_neg h1]
        split_ifs
        · simp only [Option.bind_some]
          cases bcaFrame env s c <;> rfl
        · cases abcFrame env s c call <;> rfl
        · rfl

private lemma bcaEff_iff (env : BootEnv) (names : Fin n → String) (mle : Fin n → ℝ)
    (b : List (BootCall R O n)) (c : BootCall R O n) (t : IntervalTable n) :
    bcaEff env ((BootState.init names mle).run env b) c = some t ↔ BcaEffect env names mle b c t := by
  unfold bcaEff BcaEffect
  cases asksBca c with
  | none => simp
  | some conf =>
    have := bcaFrame_iff env ((BootState.init names mle).run env b) conf t
    rw [run_bootstrap, run_jackknife, (run_init_names env b names mle).1,
      (run_init_names env b names mle).2] at this
    simp only [Option.bind_some, Option.some.injEq]
    cases hp : bcaFrame env ((BootState.init names mle).run env b) conf with
    | error e => rw [hp] at this; simpa [Except.toOption] using this
    | ok x => rw [hp] at this; simpa [Except.toOption] using this

/-- **C77**, BCa intervals. -/
theorem stored_bca (env : BootEnv) (names : Fin n → String) (mle : Fin n → ℝ)
    (h : List (BootCall R O n)) (t : IntervalTable n) :
    ((BootState.init names mle).run env h).bcaInterval = some t ↔
      IsLatest (BcaEffect env names mle) h t :=
  run_latest _ (fun s : BootState n => s.bcaInterval) (bcaEff env)
    (step_bca env) (BootState.init names mle) rfl _ (bcaEff_iff env names mle) h t

/-- The ABC frame a call computes in a state. -/
private noncomputable def abcEff (env : BootEnv) (s : BootState n) :
    BootCall R O n → Option (IntervalTable n)
  | .abc conf call => (abcFrame env s conf call).toOption
  | .conf conf t call =>
    if t = "abc" then (abcFrame env s conf call).toOption
    else if t = "all" then
      (bcaFrame env s conf).toOption.bind fun _ => (abcFrame env s conf call).toOption
    else none
  | _ => none

private lemma step_abc (env : BootEnv) (s : BootState n) (c : BootCall R O n) :
    (s.step env c).1.abcInterval = (abcEff env s c).or s.abcInterval := by
  cases c with
  | bootstrap r => cases r <;> rfl
  | jackknife r => cases r <;> rfl
  | percentile c =>
    simp only [BootState.step, BootState.calcPercentile, storeResult]; split <;> rfl
  | bca c =>
    simp only [BootState.step, BootState.calcBca, storeResult]; split <;> rfl
  | abc c call =>
    simp only [BootState.step, BootState.calcAbc, storeResult, abcEff]
    cases abcFrame env s c call <;> rfl
  | conf c t call =>
    by_cases h4 : t = "all"
    · subst h4
      simp only [BootState.step, calcConf_all, abcEff]
      rw [if_neg (by decide), if_pos trivial]
      cases h2 : bcaFrame env s c with
      | error e => cases percentileFrame env s c <;> rfl
      | ok t2 =>
        obtain ⟨t1, h1⟩ := percentile_of_bca h2
        rw [h1]
        cases abcFrame env s c call <;> rfl
    · simp only [BootState.step, BootState.calcConf, BootState.calcPercentile, BootState.calcBca,
        BootState.calcAbc, storeResult, h4, if_false, abcEff]
      by_cases h1 : t = "pi"
      · subst h1
        rw [if_pos rfl, if_neg (by decide)]
        cases percentileFrame env s c <;> rfl
      · rw [if_neg h1]
        by_cases h2 : t = "bca"
        · subst h2
          rw [if_pos rfl, if_neg (by decide)]
          cases bcaFrame env s c <;> rfl
        · rw [if_neg h2]
          split_ifs
          · cases abcFrame env s c call <;> rfl
          · rfl

private lemma toOption_iff {α : Type} (x : Except Err α) (t : α) :
    x.toOption = some t ↔ x = .ok t := by
  cases x <;> simp [Except.toOption]

private lemma abcEff_iff (env : BootEnv) (names : Fin n → String) (mle : Fin n → ℝ)
    (b : List (BootCall R O n)) (c : BootCall R O n) (t : IntervalTable n) :
    abcEff env ((BootState.init names mle).run env b) c = some t ↔ AbcEffect env names mle b c t := by
  have key : ∀ (conf : PyVal ℝ) (call : AbcCall R O n), (abcFrame env ((BootState.init names mle).run env b) conf call).toOption =
      some t ↔ AbcTable env names mle call conf t := by
    intro conf call
    rw [toOption_iff, abcFrame_iff, (run_init_names env b names mle).1,
      (run_init_names env b names mle).2]
  unfold AbcEffect
  cases c with
  | bootstrap r => simp [abcEff]
  | jackknife r => simp [abcEff]
  | percentile c => simp [abcEff]
  | bca c => simp [abcEff]
  | abc c call =>
    simp only [abcEff, key]
    constructor
    · intro h; exact ⟨c, call, h, .inl rfl⟩
    · rintro ⟨c', call', h, h1 | h1 | h1⟩
      · cases h1; exact h
      · cases h1
      · cases h1.1
  | conf c ty call =>
    by_cases h1 : ty = "abc"
    · subst h1
      simp only [abcEff, if_true, key]
      constructor
      · intro h; exact ⟨c, call, h, .inr (.inl rfl)⟩
      · rintro ⟨c', call', h, h1 | h1 | h1⟩
        · cases h1
        · cases h1; exact h
        · have := h1.1
          simp at this
    · by_cases h2 : ty = "all"
      · subst h2
        simp only [abcEff]
        rw [if_neg (by decide), if_pos trivial]
        have hb : ∀ t', bcaFrame env ((BootState.init names mle).run env b) c = .ok t' ↔
            BcaEffect env names mle b (.conf c "all" call) t' := by
          intro t'
          rw [← bcaEff_iff]
          simp [bcaEff, asksBca, toOption_iff]
        constructor
        · intro h
          rw [Option.bind_eq_some_iff] at h
          obtain ⟨t', ht', h⟩ := h
          exact ⟨c, call, (key c call).1 h, .inr (.inr ⟨rfl, t', (hb t').1 ((toOption_iff _ _).1 ht')⟩)⟩
        · rintro ⟨c', call', h, h1 | h1 | ⟨h1, t', ht'⟩⟩
          · cases h1
          · simp at h1
          · cases h1
            rw [Option.bind_eq_some_iff]
            exact ⟨t', (toOption_iff _ _).2 ((hb t').2 ht'), (key c call).2 h⟩
      · simp only [abcEff, h1, h2, if_false]
        constructor
        · intro h; cases h
        · rintro ⟨c', call', h, h3 | h3 | ⟨h3, -⟩⟩
          · cases h3
          · cases h3; exact absurd rfl h1
          · cases h3; exact absurd rfl h2

/-- **C77**, ABC intervals. -/
theorem stored_abc (env : BootEnv) (names : Fin n → String) (mle : Fin n → ℝ)
    (h : List (BootCall R O n)) (t : IntervalTable n) :
    ((BootState.init names mle).run env h).abcInterval = some t ↔
      IsLatest (AbcEffect env names mle) h t :=
  run_latest _ (fun s : BootState n => s.abcInterval) (abcEff env)
    (step_abc env) (BootState.init names mle) rfl _ (abcEff_iff env names mle) h t

/-- The combined frame a call computes in a state. -/
private noncomputable def allEff (env : BootEnv) (s : BootState n) :
    BootCall R O n → Option (CombinedTable n)
  | .conf conf t call =>
    if t = "all" then
      (percentileFrame env s conf).toOption.bind fun t1 =>
        (bcaFrame env s conf).toOption.bind fun t2 =>
          (abcFrame env s conf call).toOption.bind fun t3 =>
            some (combine3 env s.names (match conf with | .num c => 100 - c | _ => 0) t1 t2 t3)
    else none
  | _ => none

private lemma step_all (env : BootEnv) (s : BootState n) (c : BootCall R O n) :
    (s.step env c).1.allIntervals = (allEff env s c).or s.allIntervals := by
  cases c with
  | bootstrap r => cases r <;> rfl
  | jackknife r => cases r <;> rfl
  | percentile c =>
    simp only [BootState.step, BootState.calcPercentile, storeResult]; split <;> rfl
  | bca c =>
    simp only [BootState.step, BootState.calcBca, storeResult]; split <;> rfl
  | abc c call =>
    simp only [BootState.step, BootState.calcAbc, storeResult]; split <;> rfl
  | conf c t call =>
    by_cases h4 : t = "all"
    · subst h4
      simp only [BootState.step, calcConf_all, allEff, if_true]
      cases percentileFrame env s c with
      | error e => rfl
      | ok t1 =>
        cases bcaFrame env s c with
        | error e => rfl
        | ok t2 => cases abcFrame env s c call <;> rfl
    · simp only [BootState.step, BootState.calcConf, BootState.calcPercentile, BootState.calcBca,
        BootState.calcAbc, storeResult, h4, if_false, allEff]
      split_ifs
      · cases percentileFrame env s c <;> rfl
      · cases bcaFrame env s c <;> rfl
      · cases abcFrame env s c call <;> rfl
      · rfl

private lemma rows_pair {env : BootEnv} {names : Fin n → String} {conf : PyVal ℝ}
    {f : Fin n → Except Err (ℝ × ℝ)} {t : IntervalTable n} (h : TableOf env names conf f t)
    (p : Fin n) : ∃ a b, t.rows p = [a, b] := by
  obtain ⟨-, -, -, -, h⟩ := h
  obtain ⟨lo, hi, -, e⟩ := h p
  exact ⟨lo, hi, e⟩

private lemma combinedOf_iff {env : BootEnv} {names : Fin n → String} {c : ℝ}
    {t1 t2 t3 : IntervalTable n} (h1 : ∀ p, ∃ a b, t1.rows p = [a, b])
    (h2 : ∀ p, ∃ a b, t2.rows p = [a, b]) (h3 : ∀ p, ∃ a b, t3.rows p = [a, b])
    (t : CombinedTable n) :
    combine3 env names (100 - c) t1 t2 t3 = t ↔ CombinedOf env names c t1 t2 t3 t := by
  constructor
  · rintro rfl
    refine ⟨rfl, rfl, fun p => ?_⟩
    obtain ⟨a1, b1, e1⟩ := h1 p
    obtain ⟨a2, b2, e2⟩ := h2 p
    obtain ⟨a3, b3, e3⟩ := h3 p
    exact ⟨a1, b1, a2, b2, a3, b3, e1, e2, e3, by simp [combine3, e1, e2, e3]⟩
  · rintro ⟨e1, e2, e3⟩
    cases t
    simp only [combine3, CombinedTable.mk.injEq] at *
    refine ⟨e1.symm, e2.symm, funext fun p => ?_⟩
    obtain ⟨x1, x2, x3, x4, x5, x6, r1, r2, r3, r4⟩ := e3 p
    rw [r1, r2, r3, r4]
    rfl

private lemma allEff_iff (env : BootEnv) (names : Fin n → String) (mle : Fin n → ℝ)
    (b : List (BootCall R O n)) (c : BootCall R O n) (t : CombinedTable n) :
    allEff env ((BootState.init names mle).run env b) c = some t ↔ AllEffect env names mle b c t := by
  unfold AllEffect
  cases c with
  | conf c ty call =>
    by_cases h2 : ty = "all"
    · subst h2
      have hp : ∀ t', percentileFrame env ((BootState.init names mle).run env b) c = .ok t' ↔
          PercentileEffect env names b (.conf c "all" call) t' := by
        intro t'
        rw [← percentileEff_iff env names mle]
        simp [percentileEff, asksPercentile, toOption_iff]
      have hb : ∀ t', bcaFrame env ((BootState.init names mle).run env b) c = .ok t' ↔
          BcaEffect env names mle b (.conf c "all" call) t' := by
        intro t'
        rw [← bcaEff_iff]
        simp [bcaEff, asksBca, toOption_iff]
      have ha : ∀ t', abcFrame env ((BootState.init names mle).run env b) c call = .ok t' ↔
          AbcTable env names mle call c t' := by
        intro t'
        rw [abcFrame_iff, (run_init_names env b names mle).1, (run_init_names env b names mle).2]
      simp only [allEff, if_true, Option.bind_eq_some_iff, toOption_iff, hp, hb, ha,
        (run_init_names env b names mle).1, Option.some.injEq]
      constructor
      · rintro ⟨t1, h1, t2, h2, t3, h3, h4⟩
        obtain ⟨conf, reps, q1, q2, q3⟩ := id h1
        obtain ⟨conf', reps', jack, q1', q2', q3', q4'⟩ := id h2
        obtain ⟨m, ci, q1'', q2'', q3''⟩ := id h3
        obtain ⟨c0, rfl, -⟩ := id q3''
        exact ⟨c0, call, t1, t2, t3, rfl, h1, h2, h3,
          (combinedOf_iff (rows_pair q3) (rows_pair q4') (rows_pair q3'') t).1 h4⟩
      · rintro ⟨c0, call', t1, t2, t3, e, h1, h2, h3, h4⟩
        cases e
        obtain ⟨conf, reps, q1, q2, q3⟩ := id h1
        obtain ⟨conf', reps', jack, q1', q2', q3', q4'⟩ := id h2
        obtain ⟨m, ci, q1'', q2'', q3''⟩ := id h3
        exact ⟨t1, h1, t2, h2, t3, h3,
          (combinedOf_iff (rows_pair q3) (rows_pair q4') (rows_pair q3'') t).2 h4⟩
    · simp only [allEff, h2, if_false]
      constructor
      · intro h; cases h
      · rintro ⟨_, _, _, _, _, e, -⟩
        cases e; exact absurd rfl h2
  | _ =>
    simp only [allEff]
    constructor
    · intro h; cases h
    · rintro ⟨_, _, _, _, _, e, -⟩
      cases e

/-- **C77**, combined frame. -/
theorem stored_all (env : BootEnv) (names : Fin n → String) (mle : Fin n → ℝ)
    (h : List (BootCall R O n)) (t : CombinedTable n) :
    ((BootState.init names mle).run env h).allIntervals = some t ↔
      IsLatest (AllEffect env names mle) h t :=
  run_latest _ (fun s : BootState n => s.allIntervals) (allEff env)
    (step_all env) (BootState.init names mle) rfl _ (allEff_iff env names mle) h t

/-! ## C78 -/

private lemma store_cases {σ τ : Type} (s : σ) (r : Except Err τ) (set : τ → σ) :
    (∃ t, r = .ok t ∧ storeResult s r set = (set t, .ok ())) ∨
      ((∀ t, r ≠ .ok t) ∧ ∃ e, storeResult s r set = (s, .error e)) := by
  cases r with
  | ok t => exact .inl ⟨t, rfl, rfl⟩
  | error e => exact .inr ⟨fun t h => (by cases h), e, rfl⟩

/-- **C78**, one kind of interval.  The call stores the frame of that kind computed from the current
replicates and changes nothing else; when there is no such frame it raises an error and changes
nothing. -/
theorem conf_intervals_single (env : BootEnv) (s : BootState n) (conf : PyVal ℝ)
    (call : AbcCall R O n) :
    ((∃ reps t, s.bootstrapReplicates = some reps ∧ PercentileTable env s.names reps conf t ∧
        s.calcConf env conf "pi" call = ({ s with percentileInterval := some t }, .ok ())) ∨
      ((¬ ∃ reps t, s.bootstrapReplicates = some reps ∧ PercentileTable env s.names reps conf t) ∧
        ∃ e, s.calcConf env conf "pi" call = (s, .error e))) ∧
    ((∃ reps jack t, s.bootstrapReplicates = some reps ∧ s.jackknifeReplicates = some jack ∧
        BcaTable env s.names s.mleParams reps jack conf t ∧
        s.calcConf env conf "bca" call = ({ s with bcaInterval := some t }, .ok ())) ∨
      ((¬ ∃ reps jack t, s.bootstrapReplicates = some reps ∧ s.jackknifeReplicates = some jack ∧
          BcaTable env s.names s.mleParams reps jack conf t) ∧
        ∃ e, s.calcConf env conf "bca" call = (s, .error e))) ∧
    ((∃ t, AbcTable env s.names s.mleParams call conf t ∧
        s.calcConf env conf "abc" call = ({ s with abcInterval := some t }, .ok ())) ∨
      ((¬ ∃ t, AbcTable env s.names s.mleParams call conf t) ∧
        ∃ e, s.calcConf env conf "abc" call = (s, .error e))) := by
  refine ⟨?_, ?_, ?_⟩
  · rw [BootState.calcConf, if_pos rfl, BootState.calcPercentile]
    rcases store_cases s (percentileFrame env s conf)
      (fun t => { s with percentileInterval := some t }) with ⟨t, h, e⟩ | ⟨h, e⟩
    · obtain ⟨reps, h1, h2⟩ := (percentileFrame_iff env s conf t).1 h
      exact .inl ⟨reps, t, h1, h2, e⟩
    · exact .inr ⟨fun ⟨reps, t, h1, h2⟩ => h t ((percentileFrame_iff env s conf t).2 ⟨reps, h1, h2⟩), e⟩
  · rw [BootState.calcConf, if_neg (by decide), if_pos rfl, BootState.calcBca]
    rcases store_cases s (bcaFrame env s conf)
      (fun t => { s with bcaInterval := some t }) with ⟨t, h, e⟩ | ⟨h, e⟩
    · obtain ⟨reps, jack, h1, h2, h3⟩ := (bcaFrame_iff env s conf t).1 h
      exact .inl ⟨reps, jack, t, h1, h2, h3, e⟩
    · exact .inr ⟨fun ⟨reps, jack, t, h1, h2, h3⟩ =>
        h t ((bcaFrame_iff env s conf t).2 ⟨reps, jack, h1, h2, h3⟩), e⟩
  · rw [BootState.calcConf, if_neg (by decide), if_neg (by decide), if_pos rfl, BootState.calcAbc]
    rcases store_cases s (abcFrame env s conf call)
      (fun t => { s with abcInterval := some t }) with ⟨t, h, e⟩ | ⟨h, e⟩
    · exact .inl ⟨t, (abcFrame_iff env s conf call t).1 h, e⟩
    · exact .inr ⟨fun ⟨t, h1⟩ => h t ((abcFrame_iff env s conf call t).2 h1), e⟩

/-- **C78**, all kinds.  When the BCa and the ABC frames can be computed, so can the percentile frame; the call
stores the three frames at the requested percentage and the combined frame, whose labelled columns hold
the values of the three. -/
theorem conf_intervals_all (env : BootEnv) (s : BootState n) (conf : PyVal ℝ) (call : AbcCall R O n)
    {reps jack : List (Fin n → ℝ)} {bca abc : IntervalTable n} (hr : s.bootstrapReplicates = some reps)
    (hj : s.jackknifeReplicates = some jack)
    (hb : BcaTable env s.names s.mleParams reps jack conf bca)
    (ha : AbcTable env s.names s.mleParams call conf abc) :
    ∃ c pi t, conf = .num c ∧ PercentileTable env s.names reps conf pi ∧
      CombinedOf env s.names c pi bca abc t ∧
      s.calcConf env conf "all" call = ({ s with
        percentileInterval := some pi, bcaInterval := some bca, abcInterval := some abc,
        allIntervals := some t }, .ok ()) := by
  have h2 := (bcaFrame_iff env s conf bca).2 ⟨reps, jack, hr, hj, hb⟩
  have h3 := (abcFrame_iff env s conf call abc).2 ha
  obtain ⟨pi, h1⟩ := percentile_of_bca h2
  obtain ⟨reps', hr', hp⟩ := (percentileFrame_iff env s conf pi).1 h1
  rw [hr] at hr'
  cases hr'
  obtain ⟨m, ci, -, -, ha'⟩ := id ha
  obtain ⟨c, rfl, -⟩ := id ha'
  refine ⟨c, pi, combine3 env s.names (100 - c) pi bca abc, rfl, hp,
    (combinedOf_iff (rows_pair hp) (rows_pair hb) (rows_pair ha') _).1 rfl, ?_⟩
  rw [calcConf_all, h1, h2, h3]

/-- **C78**, all kinds, failure.  A call for all intervals that raises an error leaves the replicates, the ABC
frame and the combined frame as they were; the percentile and the BCa frame are the old ones or those of
this call. -/
theorem conf_intervals_all_failed (env : BootEnv) (s : BootState n) (conf : PyVal ℝ)
    (call : AbcCall R O n) {e : Err} (h : (s.calcConf env conf "all" call).2 = .error e) :
    ∃ pi bca, (s.calcConf env conf "all" call).1 =
        { s with percentileInterval := pi, bcaInterval := bca } ∧
      (pi = s.percentileInterval ∨ ∃ reps t, pi = some t ∧ s.bootstrapReplicates = some reps ∧
        PercentileTable env s.names reps conf t) ∧
      (bca = s.bcaInterval ∨ ∃ reps jack t, bca = some t ∧ s.bootstrapReplicates = some reps ∧
        s.jackknifeReplicates = some jack ∧ BcaTable env s.names s.mleParams reps jack conf t) := by
  rw [calcConf_all] at h ⊢
  cases h1 : percentileFrame env s conf with
  | error e => exact ⟨_, _, rfl, .inl rfl, .inl rfl⟩
  | ok t1 =>
    obtain ⟨reps, hr, hp⟩ := (percentileFrame_iff env s conf t1).1 h1
    cases h2 : bcaFrame env s conf with
    | error e => exact ⟨_, _, rfl, .inr ⟨reps, t1, rfl, hr, hp⟩, .inl rfl⟩
    | ok t2 =>
      obtain ⟨reps', jack, hr', hj, hb⟩ := (bcaFrame_iff env s conf t2).1 h2
      cases h3 : abcFrame env s conf call with
      | error e =>
        exact ⟨_, _, rfl, .inr ⟨reps, t1, rfl, hr, hp⟩, .inr ⟨reps', jack, t2, rfl, hr', hj, hb⟩⟩
      | ok t3 => rw [h1, h2, h3] at h; cases h

/-- **C78**, refusals.  Another type of interval is a `ValueError`; without initial values (the default of
`calc_conf_intervals`) the default call for all intervals and the call for ABC intervals always fail;
a percentage that is not a number in (0, 100) always fails. -/
theorem conf_intervals_refusals (env : BootEnv) (s : BootState n) (conf : PyVal ℝ) (ty : String)
    (call : AbcCall R O n) :
    (ty ∉ ["pi", "bca", "abc", "all"] → s.calcConf env conf ty call = (s, .error .valueError)) ∧
    (call.model = none → (ty = "abc" ∨ ty = "all") → ∃ e, (s.calcConf env conf ty call).2 = .error e) ∧
    (0 < n → (¬ ∃ c, conf = .num c ∧ 0 < c ∧ c < 100) →
      ∃ e, s.calcConf env conf ty call = (s, .error e)) := by
  refine ⟨fun h => ?_, fun h0 hty => ?_, fun hn hc => ?_⟩
  · simp only [List.mem_cons, List.not_mem_nil, or_false, not_or] at h
    rw [BootState.calcConf, if_neg h.1, if_neg h.2.1, if_neg h.2.2.1, if_neg h.2.2.2]
  · have hno : ¬ ∃ t, AbcTable env s.names s.mleParams call conf t := by
      rintro ⟨t, m, ci, hm, -⟩
      rw [h0] at hm; cases hm
    rcases hty with rfl | rfl
    · rcases (conf_intervals_single env s conf call).2.2 with ⟨t, h, -⟩ | ⟨-, e, he⟩
      · exact absurd ⟨t, h⟩ hno
      · exact ⟨e, by rw [he]⟩
    · rw [calcConf_all]
      cases h1 : percentileFrame env s conf with
      | error e => exact ⟨e, rfl⟩
      | ok t1 =>
        cases h2 : bcaFrame env s conf with
        | error e => exact ⟨e, rfl⟩
        | ok t2 =>
          cases h3 : abcFrame env s conf call with
          | error e => exact ⟨e, rfl⟩
          | ok t3 => exact absurd ⟨t3, (abcFrame_iff env s conf call t3).1 h3⟩ hno
  · have hbad : ∃ e, checkConfPercentage conf = .error e := by
      cases conf with
      | num c =>
        refine ⟨.valueError, ?_⟩
        simp only [checkConfPercentage]
        rw [if_neg fun h => hc ⟨c, rfl, h⟩]
      | _ => exact ⟨.valueError, rfl⟩
    obtain ⟨e0, he0⟩ := hbad
    have p0 : Fin n := ⟨0, hn⟩
    have n1 : ¬ ∃ reps t, s.bootstrapReplicates = some reps ∧
        PercentileTable env s.names reps conf t := by
      rintro ⟨reps, t, -, c, -, -, -, h⟩
      obtain ⟨lo, hi, h, -⟩ := h p0
      simp [calcPercentileInterval, he0, bind, Except.bind] at h
    have n2 : ¬ ∃ reps jack t, s.bootstrapReplicates = some reps ∧ s.jackknifeReplicates = some jack ∧
        BcaTable env s.names s.mleParams reps jack conf t := by
      rintro ⟨reps, jack, t, -, -, c, -, -, -, h⟩
      obtain ⟨lo, hi, h, -⟩ := h p0
      simp [calcBcaInterval, he0, bind, Except.bind] at h
    have n3 : ¬ ∃ t, AbcTable env s.names s.mleParams call conf t := by
      rintro ⟨t, m, ci, -, h, -⟩
      simp [calcAbcInterval, he0, bind, Except.bind] at h
    obtain ⟨q1, q2, q3⟩ := conf_intervals_single env s conf call
    by_cases t1 : ty = "pi"
    · subst t1
      rcases q1 with ⟨r, t, h1, h2, -⟩ | ⟨-, h⟩
      · exact absurd ⟨r, t, h1, h2⟩ n1
      · exact h
    by_cases t2 : ty = "bca"
    · subst t2
      rcases q2 with ⟨r, j, t, h1, h2, h3, -⟩ | ⟨-, h⟩
      · exact absurd ⟨r, j, t, h1, h2, h3⟩ n2
      · exact h
    by_cases t3 : ty = "abc"
    · subst t3
      rcases q3 with ⟨t, h1, -⟩ | ⟨-, h⟩
      · exact absurd ⟨t, h1⟩ n3
      · exact h
    by_cases t4 : ty = "all"
    · subst t4
      rw [calcConf_all]
      cases h1 : percentileFrame env s conf with
      | error e => exact ⟨e, rfl⟩
      | ok t =>
        obtain ⟨r, hr⟩ := (percentileFrame_iff env s conf t).1 h1
        exact absurd ⟨r, t, hr⟩ n1
    · exact ⟨.valueError, by rw [BootState.calcConf, if_neg t1, if_neg t2, if_neg t3, if_neg t4]⟩

/-! ## Stale frames and examples -/

/-- **C77**, a consequence: generating new replicates does not touch the stored frames, so the frames may
describe replicates that are no longer stored. -/
theorem stale_percentile (env : BootEnv) (names : Fin n → String) (mle : Fin n → ℝ)
    (old new : List (Fin n → ℝ)) (hne : old ≠ []) {c : ℝ} (h0 : 0 < c) (h1 : c < 100) :
    let s := (BootState.init names mle).run env
      ([.bootstrap (.ok old), .percentile (.num c), .bootstrap (.ok new)] : List (BootCall R O n))
    s.bootstrapReplicates = some new ∧
      ∃ t, s.percentileInterval = some t ∧ PercentileTable env names old (.num c) t ∧
        ∀ p, ∃ x ∈ old, ∃ y ∈ old, t.rows p = [x p, y p] := by
  intro s
  have key : ∀ p, ∃ lo hi, calcPercentileInterval (fun p => old.map fun row => row p) (.num c) p =
      .ok (lo, hi) ∧ (∃ x ∈ old, x p = lo) ∧ ∃ y ∈ old, y p = hi := by
    intro p
    obtain ⟨lo, hi, h, hlo, hhi, -⟩ := percentile_interval (fun p => old.map fun row => row p) p
      (by simpa using hne) h0 h1
    exact ⟨lo, hi, h, List.mem_map.1 hlo, List.mem_map.1 hhi⟩
  choose lo hi hci hlo hhi using key
  refine ⟨rfl, ⟨names, [env.fmt ((100 - c) / 2), env.fmt (100 - (100 - c) / 2)], fun p => [lo p, hi p]⟩,
    ?_, ⟨c, rfl, rfl, rfl, fun p => ⟨lo p, hi p, hci p, rfl⟩⟩, fun p => ?_⟩
  · rw [stored_percentile]
    refine ⟨[.bootstrap (.ok old)], .percentile (.num c), [.bootstrap (.ok new)], rfl,
      ⟨.num c, old, rfl, rfl, c, rfl, rfl, rfl, fun p => ⟨lo p, hi p, hci p, rfl⟩⟩, ?_⟩
    intro b c' a hb t' ht'
    obtain ⟨conf, reps, h, -⟩ := ht'
    cases b with
    | nil => cases hb; cases h
    | cons x b => cases b <;> cases hb
  · obtain ⟨x, hx, ex⟩ := hlo p
    obtain ⟨y, hy, ey⟩ := hhi p
    exact ⟨x, hx, y, hy, by simp [ex, ey]⟩

/-- Replicates 1, 2, 3, 4 of one parameter. -/
private def exReps : List (Fin 1 → ℝ) := [fun _ => 1, fun _ => 2, fun _ => 3, fun _ => 4]

/-- Jackknife replicates 1, 2, 3. -/
private def exJack : List (Fin 1 → ℝ) := [fun _ => 1, fun _ => 2, fun _ => 3]

/-- A fit that ignores its weights, as those of the package do (C72). -/
private noncomputable def exCall : AbcCall (Fin 3) (Fin 3) 1 := ⟨some ⟨1, fun _ _ => 5 / 2, fun _ => 1⟩, 1e-3⟩

private lemma exBca : ∃ ppf : ℝ → ℝ, IsNormQuantile ppf ∧ ∀ fmt : ℝ → String, ∃ t : IntervalTable 1,
    BcaTable ⟨ppf, normCdf, fmt⟩ (fun _ => "b") (fun _ => 5 / 2) exReps exJack (.num 90) t := by
  obtain ⟨ppf, hp⟩ := exists_normQuantile
  refine ⟨ppf, hp, fun fmt => ?_⟩
  have hr : ∀ p, calcBcaInterval ppf normCdf (fun p => exReps.map fun row => row p)
      (fun p => exJack.map fun row => row p) (fun _ => 5 / 2) (.num 90) p =
      calcPercentileInterval (fun p => exReps.map fun row => row p) (.num 90) p := by
    intro p
    refine bca_interval_reduces hp _ _ _ p (by norm_num) (by norm_num) ?_ ?_
    · simp only [shareBelow, exReps, List.map_cons, List.map_nil]
      rw [show (List.filter (fun x : ℝ => decide (x < 5 / 2)) [1, 2, 3, 4]) = [1, 2] by
        norm_num [List.filter]]
      norm_num
    · norm_num [accelerationBca, exJack]
  have key : ∀ p : Fin 1, ∃ lo hi, calcPercentileInterval (fun p => exReps.map fun row => row p)
      (.num 90) p = .ok (lo, hi) := by
    intro p
    obtain ⟨lo, hi, h, -⟩ := percentile_interval (fun p => exReps.map fun row => row p) p
      (by simp [exReps]) (c := 90) (by norm_num) (by norm_num)
    exact ⟨lo, hi, h⟩
  choose lo hi hci using key
  exact ⟨⟨fun _ => "b", [fmt ((100 - 90) / 2), fmt (100 - (100 - 90) / 2)], fun p => [lo p, hi p]⟩,
    90, rfl, rfl, rfl, fun p => ⟨lo p, hi p, (hr p).trans (hci p), rfl⟩⟩

private lemma exAbc (ppf : ℝ → ℝ) (fmt : ℝ → String) : ∃ t : IntervalTable 1,
    AbcTable ⟨ppf, normCdf, fmt⟩ (fun _ => "b") (fun _ => 5 / 2) exCall (.num 90) t :=
  ⟨⟨fun _ => "b", [fmt ((100 - 90) / 2), fmt (100 - (100 - 90) / 2)], fun _ => [5 / 2, 5 / 2]⟩,
    _, fun _ => (5 / 2, 5 / 2), rfl,
    abc_interval_degenerate _ _ _ (fun _ => 5 / 2) (fun _ => rfl) (by norm_num) (by norm_num) _,
    90, rfl, rfl, rfl, fun _ => ⟨5 / 2, 5 / 2, rfl, rfl⟩⟩

/-- A history that meets the hypotheses of `conf_intervals_all` and gives `stored_all` a case: both kinds
of replicates, then a call for all intervals. -/
example : ∃ (env : BootEnv) (s : BootState 1) (t : CombinedTable 1),
    s = (BootState.init (fun _ => "b") fun _ => 5 / 2).run env
      [.bootstrap (.ok exReps), .jackknife (.ok exJack), .conf (.num 90) "all" exCall] ∧
    s.allIntervals = some t ∧ ∃ x y z w, t.rows 0 = [x, y, z, w, 5 / 2, 5 / 2] := by
  obtain ⟨ppf, hp, hb⟩ := exBca
  set env : BootEnv := ⟨ppf, normCdf, fun _ => "%"⟩ with henv
  obtain ⟨bca, hbca⟩ := hb fun _ => "%"
  obtain ⟨abc, habc⟩ := exAbc ppf fun _ => "%"
  let s0 := (BootState.init (fun _ => "b") fun _ => 5 / 2).run env
      ([.bootstrap (.ok exReps), .jackknife (.ok exJack)] : List (BootCall (Fin 3) (Fin 3) 1))
  obtain ⟨c, pi, t, hc, hpi, ht, he⟩ := conf_intervals_all env s0 (.num 90) exCall
    (reps := exReps) (jack := exJack) rfl rfl hbca habc
  refine ⟨env, _, t, rfl, ?_, ?_⟩
  · have : (BootState.init (fun _ => "b") fun _ => 5 / 2).run env
        [.bootstrap (.ok exReps), .jackknife (.ok exJack), .conf (.num 90) "all" exCall] =
        (s0.calcConf env (.num 90) "all" exCall).1 := rfl
    rw [this, he]
  · obtain ⟨-, -, h⟩ := ht
    obtain ⟨x1, x2, x3, x4, x5, x6, -, -, h3, h4⟩ := h 0
    obtain ⟨m, ci, hm, hci, c', hc', -, -, hrow⟩ := habc
    obtain ⟨lo, hi, e, e'⟩ := hrow 0
    cases hm
    have := abc_interval_other_estimate _ _ _ (fun _ => 5 / 2) _ (fun _ => rfl) _ hci 0
    simp only [this] at e
    cases e
    rw [e'] at h3
    cases h3
    exact ⟨x1, x2, x3, x4, h4⟩

/-- The default call (`init_vals=None`) after both kinds of replicates: it fails, keeps the percentile and
BCa frames it computed, and there is no combined frame. -/
example : ∃ env : BootEnv,
    let s := (BootState.init (fun _ => "b") fun _ => 5 / 2).run env
      ([.bootstrap (.ok exReps), .jackknife (.ok exJack)] : List (BootCall (Fin 3) (Fin 3) 1))
    let r := s.calcConf env (.num 90) "all" (⟨none, 1e-3⟩ : AbcCall (Fin 3) (Fin 3) 1)
    (∃ e, r.2 = .error e) ∧ r.1.bcaInterval.isSome ∧ r.1.allIntervals = none := by
  obtain ⟨ppf, hp, hb⟩ := exBca
  obtain ⟨bca, hbca⟩ := hb fun _ => "%"
  refine ⟨⟨ppf, normCdf, fun _ => "%"⟩, ?_⟩
  intro s r
  obtain ⟨e, he⟩ := (conf_intervals_refusals ⟨ppf, normCdf, fun _ => "%"⟩ s (.num 90) "all"
    (⟨none, 1e-3⟩ : AbcCall (Fin 3) (Fin 3) 1)).2.1 rfl (.inr rfl)
  obtain ⟨pi, b, h, -, -⟩ := conf_intervals_all_failed _ _ _ _ he
  refine ⟨⟨e, he⟩, ?_, ?_⟩
  · have : r.1 = (s.step ⟨ppf, normCdf, fun _ => "%"⟩
        (.conf (.num 90) "all" (⟨none, 1e-3⟩ : AbcCall (Fin 3) (Fin 3) 1))).1 := rfl
    rw [this, step_bca]
    have h2 := (bcaFrame_iff ⟨ppf, normCdf, fun _ => "%"⟩ s (.num 90) bca).2
      ⟨exReps, exJack, rfl, rfl, hbca⟩
    simp [bcaEff, asksBca, h2, Except.toOption]
  · change (s.calcConf _ _ _ _).1.allIntervals = none
    rw [h]
    rfl

end Pylogit
