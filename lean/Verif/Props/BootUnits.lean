import Verif.Spec.BootUnits
import Verif.Props.IntervalScale
import Verif.Props.SeparationFits

/-!
# C127: replicates and intervals follow the units of the variables
-/

open Finset Matrix

namespace Pylogit

open Spec

noncomputable section

/-! ## Maxima of the same log-likelihood in other units -/

private lemma scaled_max {R : Type} [Fintype R] [DecidableEq R] {n : ℕ} {f : R → ℝ} {a : R → ℝ} (ha : ∀ r, 0 ≤ a r)
    {X X' : Matrix R (Fin n) ℝ} {κ : Fin n → ℝ} (hX : ∀ r j, X' r j = κ j * X r j) (hκ : ∀ j, κ j ≠ 0)
    {x x' : Fin n → ℝ} (hx : ∀ z, clippedLogLik f a (X *ᵥ z) ≤ clippedLogLik f a (X *ᵥ x))
    (hx' : ∀ z, clippedLogLik f a (X' *ᵥ z) ≤ clippedLogLik f a (X' *ᵥ x'))
    (hin : ∀ r, |(X *ᵥ x) r| < 700) (hin' : ∀ r, |(X' *ᵥ x') r| < 700)
    (hid : ∀ v, (∀ r s t, 0 < a r → f s = f r → f t = f r → (X *ᵥ v) s = (X *ᵥ v) t) → v = 0) (j : Fin n) :
    x' j = (κ j)⁻¹ * x j := by
  have e : ∀ z : Fin n → ℝ, X' *ᵥ z = X *ᵥ fun j => κ j * z j := by
    intro z
    funext r
    simp only [mulVec, dotProduct, hX]
    exact Finset.sum_congr rfl fun j _ => by ring
  have h1 := best_inside ha hx hin
  have h2 := best_inside (X := X) (x := fun j => κ j * x' j) ha (fun z => by
    have := hx' fun j => (κ j)⁻¹ * z j
    rw [e, e] at this
    have e2 : (fun j => κ j * ((κ j)⁻¹ * z j)) = z := funext fun j => by rw [mul_inv_cancel_left₀ (hκ j)]
    rwa [e2] at this) (by rw [← e]; exact hin')
  have h3 := (logit_estimate_unique ha h1 ⟨fun i hi => absurd hi List.not_mem_nil, fun y _ => h2.2 y fun i hi => absurd hi List.not_mem_nil⟩).2.2 hid
  rw [← congrFun h3 j, inv_mul_cancel_left₀ (hκ j)]

theorem described_inUnits (df : Frame ℝ) {k : String → ℝ} {altCol : String} (halt : k altCol = 1)
    (cols : List (ColDesc ℝ)) (r : Fin df.numRows) (j : Fin cols.length) :
    describedMatrix (inUnits df k) altCol cols cols.length r j =
      k (cols[j].ofVariable) * describedMatrix df altCol cols cols.length r j := by
  have e : cols[j.val]? = some cols[j] := List.getElem?_eq_getElem j.2
  show ((cols[j.val]?).map fun d => d.value (inUnits df k) altCol r).getD 0 =
    k (cols[j].ofVariable) * ((cols[j.val]?).map fun d => d.value df altCol r).getD 0
  rw [e, Option.map_some, Option.map_some, Option.getD_some, Option.getD_some]
  generalize cols[j] = d
  cases d with
  | same v => rfl
  | alt v b =>
    have : (inUnits df k).val altCol r = df.val altCol r := by simp [inUnits, halt]
    simp only [ColDesc.value, this, ColDesc.ofVariable, mul_ite, mul_zero]
    rfl
  | group v l =>
    have : (inUnits df k).val altCol r = df.val altCol r := by simp [inUnits, halt]
    simp only [ColDesc.value, this, ColDesc.ofVariable, mul_ite, mul_zero]
    rfl

/-- The model built on the table in other units. -/
theorem built_inUnits {env : Env ℝ} {ty : String} {df : Frame ℝ} {a : ModelArgs ℝ} {m m' : ChoiceModel ℝ}
    {k : String → ℝ} (hk : OnlyVariables a k) (hm : createChoiceModel env ty df a = .ok m)
    (hm' : createChoiceModel env ty (inUnits df k) a = .ok m') :
    m'.data = inUnits m.data k ∧ m'.args = m.args ∧ m'.cls = m.cls ∧ OnlyVariables m.args k := by
  unfold createChoiceModel at hm hm'
  split at hm
  · cases hm
  rename_i cls e
  rw [e] at hm'
  rw [classInit_iff] at hm hm'
  obtain ⟨a1, a2, a3, a4⟩ := baseInit_attrs hm.2
  obtain ⟨b1, b2, b3, b4⟩ := baseInit_attrs hm'.2
  obtain ⟨c1, c2, c3, -, -⟩ := argsFor_same cls a
  refine ⟨?_, b4.trans a4.symm, b1.trans a1.symm, ?_⟩
  · rw [b3, a3]
    unfold addIntercept
    by_cases h : "intercept" ∈ (argsFor cls a).specification.map Prod.fst ∧ "intercept" ∉ df.columns
    · rw [if_pos h, if_pos (by exact h)]
      unfold inUnits
      congr 1
      funext c r
      by_cases hc : c = "intercept"
      · simp [hc, hk.intercept]
      · simp [hc]
    · rw [if_neg h, if_neg (by exact h)]
  · rw [a4]
    exact ⟨c2 ▸ hk.obs, c1 ▸ hk.alt, c3 ▸ hk.choice, hk.intercept, hk.nonzero⟩

theorem same_val {df : Frame ℝ} {k : String → ℝ} {c : String} (h : k c = 1) :
    (inUnits df k).val c = df.val c := by
  funext r
  simp [inUnits, h]

private lemma columnOf_scaled {n : ℕ} {reps reps' : List (List ℝ)} (hl : reps.length = reps'.length) {κ : Fin n → ℝ}
    (h : ∀ i (hi : i < reps.length) (hi' : i < reps'.length), ∃ x x' : Fin n → ℝ, reps[i] = List.ofFn x ∧
      reps'[i] = List.ofFn x' ∧ ∀ j, x' j = κ j * x j) (j : Fin n) :
    columnOf reps' j = (columnOf reps j).map fun x => κ j * x := by
  unfold columnOf
  apply List.ext_getElem
  · simp [hl]
  · intro i h1 h2
    simp only [List.length_map] at h1 h2
    obtain ⟨x, x', e1, e2, e3⟩ := h i h2 h1
    simp only [List.getElem_map, e1, e2]
    simp [e3]

theorem sample_best {m : ChoiceModel ℝ} {cols : List (ColDesc ℝ)} {sample : List ℝ} {x : Fin cols.length → ℝ}
    (h : ∀ y, (tableOf m []).sampleLogLik sample none
      (fun (θ : Fin cols.length → ℝ) r => rowIndex m.data m.args.altIdCol cols (List.ofFn θ) r) y ≤
        (tableOf m []).sampleLogLik sample none
      (fun (θ : Fin cols.length → ℝ) r => rowIndex m.data m.args.altIdCol cols (List.ofFn θ) r) x) (z : Fin cols.length → ℝ) :
    clippedLogLik (m.data.val m.args.obsIdCol)
        (fun r => (sample.count (m.data.val m.args.obsIdCol r) : ℝ) * m.data.val m.args.choiceCol r)
        (describedMatrix m.data m.args.altIdCol cols cols.length *ᵥ z) ≤
      clippedLogLik (m.data.val m.args.obsIdCol)
        (fun r => (sample.count (m.data.val m.args.obsIdCol r) : ℝ) * m.data.val m.args.choiceCol r)
        (describedMatrix m.data m.args.altIdCol cols cols.length *ᵥ x) := by
  have e : ∀ θ : Fin cols.length → ℝ, (tableOf m []).sampleLogLik sample none
      (fun (θ : Fin cols.length → ℝ) r => rowIndex m.data m.args.altIdCol cols (List.ofFn θ) r) θ =
      clippedLogLik (m.data.val m.args.obsIdCol)
        (fun r => (sample.count (m.data.val m.args.obsIdCol r) : ℝ) * m.data.val m.args.choiceCol r)
        (describedMatrix m.data m.args.altIdCol cols cols.length *ᵥ θ) := fun θ => by
    rw [sampleLogLik_clipped, described_dot rfl θ]; rfl
  exact (e z).symm.trans_le ((h z).trans (e x).le)

theorem without_best {m : ChoiceModel ℝ} {cols : List (ColDesc ℝ)} {ids : List ℝ} {o : ℝ} {x : Fin cols.length → ℝ}
    (h : ∀ y, (tableOf m ids).logLikWithout o none
      (fun (θ : Fin cols.length → ℝ) r => rowIndex m.data m.args.altIdCol cols (List.ofFn θ) r) y ≤
        (tableOf m ids).logLikWithout o none
      (fun (θ : Fin cols.length → ℝ) r => rowIndex m.data m.args.altIdCol cols (List.ofFn θ) r) x) (z : Fin cols.length → ℝ) :
    clippedLogLik (m.data.val m.args.obsIdCol)
        (fun r => if m.data.val m.args.obsIdCol r = o then 0 else m.data.val m.args.choiceCol r)
        (describedMatrix m.data m.args.altIdCol cols cols.length *ᵥ z) ≤
      clippedLogLik (m.data.val m.args.obsIdCol)
        (fun r => if m.data.val m.args.obsIdCol r = o then 0 else m.data.val m.args.choiceCol r)
        (describedMatrix m.data m.args.altIdCol cols cols.length *ᵥ x) := by
  have e : ∀ θ : Fin cols.length → ℝ, (tableOf m ids).logLikWithout o none
      (fun (θ : Fin cols.length → ℝ) r => rowIndex m.data m.args.altIdCol cols (List.ofFn θ) r) θ =
      clippedLogLik (m.data.val m.args.obsIdCol)
        (fun r => if m.data.val m.args.obsIdCol r = o then 0 else m.data.val m.args.choiceCol r)
        (describedMatrix m.data m.args.altIdCol cols cols.length *ᵥ θ) := fun θ => by
    rw [logLikWithout_clipped, described_dot rfl θ]; rfl
  exact (e z).symm.trans_le ((h z).trans (e x).le)

/-- Maxima for a table and for the table in other units, where the observations that count are those looked at. -/
theorem units_max {df : Frame ℝ} {k : String → ℝ} {obsCol altCol choiceCol : String} {cols : List (ColDesc ℝ)}
    (hobs : k obsCol = 1) (halt : k altCol = 1) (hch : k choiceCol = 1) (hk : ∀ c, k c ≠ 0)
    {chosen : ℝ → Fin df.numRows} (hc : OneChoicePerObs df obsCol choiceCol chosen)
    (w : ℝ → ℝ → ℝ) (hw : ∀ o y, 0 ≤ y → 0 ≤ w o y) {look : ℝ → Prop} (hl : ∀ o, look o → 0 < w o 1)
    {x x' : Fin cols.length → ℝ}
    (hx : ∀ z, clippedLogLik (df.val obsCol) (fun r => w (df.val obsCol r) (df.val choiceCol r))
        (describedMatrix df altCol cols cols.length *ᵥ z) ≤
      clippedLogLik (df.val obsCol) (fun r => w (df.val obsCol r) (df.val choiceCol r))
        (describedMatrix df altCol cols cols.length *ᵥ x))
    (hx' : ∀ z, clippedLogLik ((inUnits df k).val obsCol)
        (fun r => w ((inUnits df k).val obsCol r) ((inUnits df k).val choiceCol r))
        (describedMatrix (inUnits df k) altCol cols cols.length *ᵥ z) ≤
      clippedLogLik ((inUnits df k).val obsCol)
        (fun r => w ((inUnits df k).val obsCol r) ((inUnits df k).val choiceCol r))
        (describedMatrix (inUnits df k) altCol cols cols.length *ᵥ x'))
    (hin : ∀ r, |rowIndex df altCol cols (List.ofFn x) r| < 700)
    (hin' : ∀ r, |rowIndex (inUnits df k) altCol cols (List.ofFn x') r| < 700)
    (hid : IdentifiedOn df obsCol altCol cols look) (j : Fin cols.length) :
    x' j = (k cols[j].ofVariable)⁻¹ * x j := by
  rw [same_val hobs, same_val hch] at hx'
  refine scaled_max (f := df.val obsCol) (a := fun r => w (df.val obsCol r) (df.val choiceCol r))
    (fun r => hw _ _ (choices_nonneg hc r))
    (X := describedMatrix df altCol cols cols.length)
    (X' := describedMatrix (inUnits df k) altCol cols cols.length)
    (fun r j => described_inUnits df halt cols r j) (fun j => hk _) hx hx' ?_ ?_ ?_ j
  · rw [described_dot rfl]; exact hin
  · intro r
    exact (congrArg abs (congrFun (described_dot (df := inUnits df k) (altCol := altCol) rfl x') r)).trans_lt (hin' r)
  · intro v hv
    refine hid v fun r q hrq hlr => ?_
    have := hv (chosen (df.val obsCol r)) r q
      (by beta_reduce; rw [hc.one, hc.mem]; exact hl _ hlr) (hc.mem r).symm (hrq.symm.trans (hc.mem r).symm)
    rwa [described_dot rfl] at this

/-! ## C127: replicates in other units -/

/-- **C127** (bootstrap). Build a multinomial logit on a table, and another one on the same table with some variables in
other units: every value of column `c` times `k c`, not zero, with the ids, the choices and the constant left alone.
Generate bootstrap replicates for both with the same number of samples, seed and state of the random numbers, without a
ridge penalty, each with any starting values and any optimiser that finds global maxima. If the coefficients
are identified in every sample, and no utility is clipped at any replicate, both draw the same samples, leave the
generator in the same state, and every replicate of the coefficient of a column of the variable `v` is
divided by `k v`. -/
theorem bootstrap_units {env : Env ℝ} {ty : String} {df : Frame ℝ} {a : ModelArgs ℝ} {m m' : ChoiceModel ℝ}
    {k : String → ℝ} (hk : OnlyVariables a k) (hm : createChoiceModel env ty df a = .ok m)
    (hm' : createChoiceModel env ty (inUnits df k) a = .ok m') (hcls : m.cls = .mnl)
    {s : List (String × SpecVal ℝ)} (hspec : m.args.specification = encodeAll s) {alts : List ℝ}
    (ha : AltsOf m.data m.args.altIdCol alts)
    {chosen : ℝ → Fin m.data.numRows} (hc : OneChoicePerObs m.data m.args.obsIdCol m.args.choiceCol chosen)
    (hboot : "bootstrap_id" ∉ m.data.columns) {g : Rng} (hg : ChoosesMembers g) {bfgs bfgs' : Solver}
    {extract extract' : ChoiceModel ℝ → List (PyVal ℝ) → List ℝ → ℕ → Except Err (List ℝ)}
    {mnl mnl' : MnlArgs ℝ PointOptions} {opts opts' : PointOptions} {numSamples : ℕ} {seed : Option IntArg}
    {st st₁ st₂ : g.State} {reps reps' : List (List ℝ)} {n : ℕ} (hn : n = (specColumns alts s).length)
    (hinit : (mnl.init.getD (List.replicate n 0)).length = n)
    (hinit' : (mnl'.init.getD (List.replicate n 0)).length = n)
    (hridge : (mnl.kwargs.getD ⟨bfgs, none, none⟩).ridge = none)
    (hridge' : (mnl'.kwargs.getD ⟨bfgs', none, none⟩).ridge = none)
    (hmin : MinimisingSolver (mnl.kwargs.getD ⟨bfgs, none, none⟩).solver)
    (hmin' : MinimisingSolver (mnl'.kwargs.getD ⟨bfgs', none, none⟩).solver)
    (h : bootstrapRun g env bfgs extract m n mnl opts numSamples seed st = .ok (reps, st₁))
    (h' : bootstrapRun g env bfgs' extract' m' n mnl' opts' numSamples seed st = .ok (reps', st₂))
    (hid : ∀ samples t, samplesRng g (m.data.val m.args.obsIdCol) (m.data.val m.args.altIdCol)
        (m.data.val m.args.choiceCol) numSamples seed st = .ok (samples, t) → ∀ sample ∈ samples,
      IdentifiedOn m.data m.args.obsIdCol m.args.altIdCol (specColumns alts s) (· ∈ sample))
    (hin : NeverClipped m.data m.args.altIdCol (specColumns alts s) reps)
    (hin' : NeverClipped m'.data m'.args.altIdCol (specColumns alts s) reps') :
    st₂ = st₁ ∧ reps'.length = reps.length ∧ ∀ j : Fin (specColumns alts s).length,
      columnOf reps' j = (columnOf reps j).map fun x => (k (specColumns alts s)[j].ofVariable)⁻¹ * x := by
  subst hn
  obtain ⟨e1, e2, e3, hk'⟩ := built_inUnits hk hm hm'
  obtain ⟨cls', dn', data', des', ivn', args', mp'⟩ := m'
  dsimp only at e1 e2 e3 hin'
  subst e1 e2 e3
  have ha' : AltsOf (inUnits m.data k) m.args.altIdCol alts := by
    obtain ⟨a1, a2⟩ := ha
    exact ⟨a1, by rw [same_val hk'.alt]; exact a2⟩
  have hc' : OneChoicePerObs (inUnits m.data k) m.args.obsIdCol m.args.choiceCol chosen := by
    obtain ⟨c1, c2, c3⟩ := hc
    constructor <;> (try rw [same_val hk'.obs]) <;> (try rw [same_val hk'.choice]) <;> assumption
  have hU := mnl_documented hcls (alts := alts) (cols := specColumns alts s) rfl
  have hU' := mnl_documented (m := ⟨m.cls, dn', inUnits m.data k, des', ivn', m.args, mp'⟩) hcls (alts := alts) (cols := specColumns alts s) rfl
  obtain ⟨h0, samples, h1, h2, h3⟩ := bootstrap_replicates_maximise hm (by rw [hcls]; decide) hspec [] ha
    (by rw [hcls]; simp) hc hboot hU hg (fun _ => hinit) (fun h => absurd hcls h) h
  obtain ⟨h0', samples', h1', h2', h3'⟩ := bootstrap_replicates_maximise hm' (by dsimp only; rw [hcls]; decide) hspec [] ha'
    (by dsimp only; rw [hcls]; simp) hc' hboot hU' hg (fun _ => hinit') (fun h => absurd hcls h) h'
  dsimp only at h1' h3'
  rw [same_val hk'.obs, same_val hk'.alt, same_val hk'.choice] at h1'
  cases h1.symm.trans h1'
  refine ⟨rfl, h0'.trans h0.symm, columnOf_scaled (h0.trans h0'.symm) fun i hi hi' => ?_⟩
  have his : i < samples.length := by rw [h2, ← h0]; exact hi
  obtain ⟨-, x₀, x, hx, -, -, hmax⟩ := h3 i his hi
  obtain ⟨-, x₀', x', hx', -, -, hmax'⟩ := h3' i his hi'
  rw [if_pos hcls, hridge] at hmax
  rw [if_pos hcls, hridge'] at hmax'
  have b1 := sample_best (hmax hmin)
  have b2 := sample_best (hmax' hmin')
  clear hmax hmax' hmin hmin' h3 h3' hU hU' h h' hm hm'
  refine ⟨x, x', hx, hx', ?_⟩
  refine units_max (df := m.data) (obsCol := m.args.obsIdCol) (altCol := m.args.altIdCol)
    (choiceCol := m.args.choiceCol) hk'.obs hk'.alt hk'.choice hk'.nonzero hc
    (fun o y => (samples[i].count o : ℝ) * y) (fun o y hy => mul_nonneg (Nat.cast_nonneg _) hy) (look := (· ∈ samples[i]))
    (fun o ho => by rw [mul_one, Nat.cast_pos]; exact List.count_pos_iff.2 ho) b1
    b2 ?_ ?_ (hid _ _ h1 _ (List.getElem_mem his))
  · intro r
    have := hin _ (List.getElem_mem hi) r
    rwa [hx] at this
  · intro r
    have := hin' _ (List.getElem_mem hi') r
    rwa [hx'] at this

/-- **C127** (jackknife). The same for the jackknife, where the coefficients must be identified without each
observation. -/
theorem jackknife_units {env : Env ℝ} {ty : String} {df : Frame ℝ} {a : ModelArgs ℝ} {m m' : ChoiceModel ℝ}
    {k : String → ℝ} (hk : OnlyVariables a k) (hm : createChoiceModel env ty df a = .ok m)
    (hm' : createChoiceModel env ty (inUnits df k) a = .ok m') (hcls : m.cls = .mnl)
    {s : List (String × SpecVal ℝ)} (hspec : m.args.specification = encodeAll s) {alts ids : List ℝ}
    (ha : AltsOf m.data m.args.altIdCol alts) (hids : AltsOf m.data m.args.obsIdCol ids)
    {chosen : ℝ → Fin m.data.numRows} (hc : OneChoicePerObs m.data m.args.obsIdCol m.args.choiceCol chosen)
    {bfgs bfgs' : Solver} {extract extract' : ChoiceModel ℝ → List (PyVal ℝ) → List ℝ → ℕ → Except Err (List ℝ)}
    {mnl mnl' : MnlArgs ℝ PointOptions} {opts opts' : PointOptions} {reps reps' : List (List ℝ)} {n : ℕ}
    (hn : n = (specColumns alts s).length)
    (hinit : (mnl.init.getD (List.replicate n 0)).length = n)
    (hinit' : (mnl'.init.getD (List.replicate n 0)).length = n)
    (hridge : (mnl.kwargs.getD ⟨bfgs, none, none⟩).ridge = none)
    (hridge' : (mnl'.kwargs.getD ⟨bfgs', none, none⟩).ridge = none)
    (hmin : MinimisingSolver (mnl.kwargs.getD ⟨bfgs, none, none⟩).solver)
    (hmin' : MinimisingSolver (mnl'.kwargs.getD ⟨bfgs', none, none⟩).solver)
    (h : generateJackknifeReplicates env (pointFitter bfgs) extract m n mnl opts = .ok reps)
    (h' : generateJackknifeReplicates env (pointFitter bfgs') extract' m' n mnl' opts' = .ok reps')
    (hid : ∀ o ∈ ids, IdentifiedOn m.data m.args.obsIdCol m.args.altIdCol (specColumns alts s) (· ≠ o))
    (hin : NeverClipped m.data m.args.altIdCol (specColumns alts s) reps)
    (hin' : NeverClipped m'.data m'.args.altIdCol (specColumns alts s) reps') :
    reps'.length = reps.length ∧ ∀ j : Fin (specColumns alts s).length,
      columnOf reps' j = (columnOf reps j).map fun x => (k (specColumns alts s)[j].ofVariable)⁻¹ * x := by
  subst hn
  obtain ⟨e1, e2, e3, hk'⟩ := built_inUnits hk hm hm'
  obtain ⟨cls', dn', data', des', ivn', args', mp'⟩ := m'
  dsimp only at e1 e2 e3 hin'
  subst e1 e2 e3
  have ha' : AltsOf (inUnits m.data k) m.args.altIdCol alts := by
    obtain ⟨a1, a2⟩ := ha
    exact ⟨a1, by rw [same_val hk'.alt]; exact a2⟩
  have hids' : AltsOf (inUnits m.data k) m.args.obsIdCol ids := by
    obtain ⟨a1, a2⟩ := hids
    exact ⟨a1, by rw [same_val hk'.obs]; exact a2⟩
  have hc' : OneChoicePerObs (inUnits m.data k) m.args.obsIdCol m.args.choiceCol chosen := by
    obtain ⟨c1, c2, c3⟩ := hc
    constructor <;> (try rw [same_val hk'.obs]) <;> (try rw [same_val hk'.choice]) <;> assumption
  have hU := mnl_documented hcls (alts := alts) (cols := specColumns alts s) rfl
  have hU' := mnl_documented (m := ⟨m.cls, dn', inUnits m.data k, des', ivn', m.args, mp'⟩) hcls (alts := alts)
    (cols := specColumns alts s) rfl
  obtain ⟨h0, h3⟩ := jackknife_replicates_maximise hm (by rw [hcls]; decide) hspec ha
    (by rw [hcls]; simp) hids hc hU (fun _ => hinit) (fun h => absurd hcls h) h
  obtain ⟨h0', h3'⟩ := jackknife_replicates_maximise hm' (by dsimp only; rw [hcls]; decide) hspec ha'
    (by dsimp only; rw [hcls]; simp) hids' hc' hU' (fun _ => hinit') (fun h => absurd hcls h) h'
  dsimp only at h3'
  refine ⟨h0'.trans h0.symm, columnOf_scaled (h0.trans h0'.symm) fun i hi hi' => ?_⟩
  have his : i < ids.length := by rw [← h0]; exact hi
  obtain ⟨x₀, x, hx, -, -, hmax⟩ := h3 i his hi
  obtain ⟨x₀', x', hx', -, -, hmax'⟩ := h3' i his hi'
  rw [if_pos hcls, hridge] at hmax
  rw [if_pos hcls, hridge'] at hmax'
  have b1 := without_best (hmax hmin)
  have b2 := without_best (hmax' hmin')
  clear hmax hmax' hmin hmin' h3 h3' hU hU' h h' hm hm'
  refine ⟨x, x', hx, hx', ?_⟩
  refine units_max (df := m.data) (obsCol := m.args.obsIdCol) (altCol := m.args.altIdCol)
    (choiceCol := m.args.choiceCol) hk'.obs hk'.alt hk'.choice hk'.nonzero hc
    (fun o y => if o = ids[i] then 0 else y) (fun o y hy => by beta_reduce; split_ifs; exacts [le_rfl, hy])
    (look := (· ≠ ids[i])) (fun o ho => by beta_reduce; rw [if_neg ho]; exact one_pos) b1
    b2 ?_ ?_ (hid _ (List.getElem_mem his))
  · intro r
    have := hin _ (List.getElem_mem hi) r
    rwa [hx] at this
  · intro r
    have := hin' _ (List.getElem_mem hi') r
    rwa [hx'] at this

/-! ## C127: intervals in other units -/

/-- **C127** (intervals). If the replicates, the jackknife replicates and the estimates for the table in
other units are those for the table with coefficient `j` divided by `κ j` - `bootstrap_units`, `jackknife_units` and
`fit_units` -, so are the endpoints of the percentile interval and, if `κ j` is positive, of the BCa interval of
coefficient `j`; where `κ j` is negative the endpoints of the percentile interval trade places, and so do those of the
BCa interval unless a replicate equals the estimate. -/
theorem intervals_units {n : ℕ} {reps reps' jack jack' : List (List ℝ)} {x x' : Fin n → ℝ} {κ : ℝ} {j : Fin n}
    (hr : columnOf reps' j = (columnOf reps j).map fun x => κ⁻¹ * x)
    (hj : columnOf jack' j = (columnOf jack j).map fun x => κ⁻¹ * x) (hx : x' j = κ⁻¹ * x j) (conf : PyVal ℝ)
    {ppf : ℝ → ℝ} (hp : IsNormQuantile ppf) :
    let R := fun i : Fin n => columnOf reps i
    let R' := fun i : Fin n => columnOf reps' i
    let J := fun i : Fin n => columnOf jack i
    let J' := fun i : Fin n => columnOf jack' i
    (0 < κ → calcPercentileInterval R' conf j =
        (calcPercentileInterval R conf j).map (fun ci => (κ⁻¹ * ci.1, κ⁻¹ * ci.2)) ∧
      calcBcaInterval ppf normCdf R' J' x' conf j =
        (calcBcaInterval ppf normCdf R J x conf j).map (fun ci => (κ⁻¹ * ci.1, κ⁻¹ * ci.2))) ∧
    (κ < 0 → calcPercentileInterval R' conf j =
        (calcPercentileInterval R conf j).map (fun ci => (κ⁻¹ * ci.2, κ⁻¹ * ci.1)) ∧
      (x j ∉ R j → calcBcaInterval ppf normCdf R' J' x' conf j =
        (calcBcaInterval ppf normCdf R J x conf j).map (fun ci => (κ⁻¹ * ci.2, κ⁻¹ * ci.1)))) := by
  intro R R' J J'
  have hrc : RescaledColumn κ⁻¹ R R' J J' x x' j := ⟨hr, hj, hx⟩
  refine ⟨fun hκ => ⟨?_, ?_⟩, fun hκ => ⟨?_, fun hties => ?_⟩⟩
  · exact percentile_interval_increasing (fun u v huv => mul_le_mul_of_nonneg_left huv (inv_pos.2 hκ).le) R R' j hr conf
  · exact bca_interval_rescaled ppf normCdf (inv_pos.2 hκ) R R' J J' x x' j hrc conf
  · exact percentile_interval_decreasing (fun u v huv => mul_le_mul_of_nonpos_left huv (inv_lt_zero.2 hκ).le) R R' j hr conf
  · exact bca_interval_reflected hp (inv_lt_zero.2 hκ) R R' J J' x x' j hrc hties conf

end

end Pylogit
