import Mathlib.MeasureTheory.Integral.Bochner.Set
import Verif.Lemmas.Simulation
import Verif.Props.PredictMixed

/-!
# Simulated probabilities and log-likelihoods of the mixed logit (C115)
-/

open MeasureTheory ProbabilityTheory Finset

namespace Pylogit

open Spec

noncomputable section

/-! ## Helper lemmas: utilities and probabilities as functions of the deviates -/

private lemma rowIndex_sum (df : Frame ℝ) (altCol : String) (r : Fin df.numRows) : ∀ (cols : List (ColDesc ℝ)) (b : List ℝ),
    rowIndex df altCol cols b r = ∑ i : Fin cols.length, cols[i].value df altCol r * b.getD i 0
  | [], b => by simp [rowIndex]
  | c :: cs, [] => by simp [rowIndex]
  | c :: cs, x :: b => by
    have h := rowIndex_sum df altCol r cs b
    simp only [rowIndex] at h ⊢
    rw [List.zip_cons_cons, List.map_cons, List.sum_cons, h]
    simp [Fin.sum_univ_succ]

variable {n : ℕ} {df : Frame ℝ} {obsCol altCol : String} {cols : List (ColDesc ℝ)} {mean : List ℝ} {sd : Fin n → ℝ}
  {col : Fin n → ℕ}

private lemma utility_measurable (r : Fin df.numRows) :
    Measurable fun z : Fin n → ℝ => utilityAt df altCol cols mean sd col z r := by
  simp only [utilityAt, rowIndex_sum]
  refine Finset.measurable_sum _ fun i _ => Measurable.const_mul ?_ _
  by_cases h : i.val < mean.length
  · have e : (fun z : Fin n → ℝ => (personCoefs mean sd col z).getD i 0) =
        fun z => mean[i.val] + ∑ j with col j = i, sd j * z j := by
      funext z
      simp [personCoefs, List.getD, h]
    rw [e]
    fun_prop
  · have e : (fun z : Fin n → ℝ => (personCoefs mean sd col z).getD i 0) = fun _ => 0 := by
      funext z
      simp [personCoefs, List.getD, h]
    rw [e]
    exact measurable_const

private lemma logit_measurable {u : (Fin n → ℝ) → Fin df.numRows → ℝ} (hu : ∀ r, Measurable fun z => u z r)
    (r : Fin df.numRows) : Measurable fun z => logitProb (df.val obsCol) (u z) r := by
  simp only [logitProb]
  exact ((hu r).exp).div (Finset.measurable_sum _ fun s _ => (hu s).exp)

private lemma clipped_measurable (r : Fin df.numRows) :
    Measurable fun z : Fin n → ℝ => clippedLogit (df.val obsCol) (utilityAt df altCol cols mean sd col z) r := by
  simp only [clippedLogit]
  refine logit_measurable (fun s => ?_) r
  simp only [clip700]
  exact measurable_const.max ((utility_measurable s).min measurable_const)

private lemma logit_bounds {R O : Type} [Fintype R] [DecidableEq O] (f : R → O) (h : R → ℝ) (r : R) :
    0 < logitProb f h r ∧ logitProb f h r ≤ 1 := by
  have hr : r ∈ rowsOf f (f r) := by simp [rowsOf]
  have hpos : 0 < ∑ s ∈ rowsOf f (f r), Real.exp (h s) := sum_pos (fun _ _ => Real.exp_pos _) ⟨r, hr⟩
  refine ⟨div_pos (Real.exp_pos _) hpos, (div_le_one hpos).2 ?_⟩
  exact single_le_sum (f := fun s => Real.exp (h s)) (fun _ _ => (Real.exp_pos _).le) hr

private lemma clip_bounds (x : ℝ) : -700 ≤ clip700 x ∧ clip700 x ≤ 700 := by
  simp [clip700]

/-- The smallest probability of a row that clipping leaves possible in a table. -/
private def floorProb (df : Frame ℝ) : ℝ := Real.exp (-1400) / df.numRows

private lemma clipped_floor (u : Fin df.numRows → ℝ) (r : Fin df.numRows) :
    floorProb df ≤ clippedLogit (df.val obsCol) u r := by
  have hr : r ∈ rowsOf (df.val obsCol) (df.val obsCol r) := by simp [rowsOf]
  have hN : (0 : ℝ) < df.numRows := by exact_mod_cast r.pos
  unfold floorProb clippedLogit logitProb
  have hpos : 0 < ∑ s ∈ rowsOf (df.val obsCol) (df.val obsCol r), Real.exp (clip700 (u s)) :=
    sum_pos (fun _ _ => Real.exp_pos _) ⟨r, hr⟩
  have hle : ∑ s ∈ rowsOf (df.val obsCol) (df.val obsCol r), Real.exp (clip700 (u s)) ≤ df.numRows * Real.exp 700 := by
    calc _ ≤ ∑ s ∈ rowsOf (df.val obsCol) (df.val obsCol r), Real.exp 700 :=
          sum_le_sum fun s _ => Real.exp_le_exp.2 (clip_bounds _).2
      _ = (rowsOf (df.val obsCol) (df.val obsCol r)).card * Real.exp 700 := by simp
      _ ≤ df.numRows * Real.exp 700 := by
        gcongr
        exact (card_le_univ _).trans (by simp)
  rw [div_le_div_iff₀ hN hpos]
  calc Real.exp (-1400) * ∑ s ∈ rowsOf (df.val obsCol) (df.val obsCol r), Real.exp (clip700 (u s))
      ≤ Real.exp (-1400) * (df.numRows * Real.exp 700) := by gcongr
    _ = Real.exp (-700) * df.numRows := by
        rw [show (-700 : ℝ) = -1400 + 700 from by norm_num, Real.exp_add]; ring
    _ ≤ Real.exp (clip700 (u r)) * df.numRows := by
        gcongr
        exact (clip_bounds _).1

private lemma floor_bounds (h : 0 < df.numRows) : 0 < floorProb df ∧ floorProb df ≤ 1 := by
  have hN : (1 : ℝ) ≤ df.numRows := by exact_mod_cast h
  refine ⟨by unfold floorProb; positivity, ?_⟩
  unfold floorProb
  rw [div_le_one (by linarith)]
  exact (Real.exp_le_one_iff.2 (by norm_num)).trans hN

private lemma product_bounds (h : 0 < df.numRows) (A : Finset (Fin df.numRows)) (u : Fin df.numRows → ℝ) :
    floorProb df ^ df.numRows ≤ ∏ r ∈ A, clippedLogit (df.val obsCol) u r ∧
    ∏ r ∈ A, clippedLogit (df.val obsCol) u r ≤ 1 := by
  obtain ⟨c0, c1⟩ := floor_bounds h
  refine ⟨?_, prod_le_one (fun r _ => (logit_bounds _ _ r).1.le) fun r _ => (logit_bounds _ _ r).2⟩
  calc floorProb df ^ df.numRows ≤ floorProb df ^ A.card :=
        pow_le_pow_of_le_one c0.le c1 ((card_le_univ _).trans (by simp))
    _ = ∏ _r ∈ A, floorProb df := by simp
    _ ≤ _ := prod_le_prod (fun _ _ => c0.le) fun r _ => clipped_floor u r

/-- Probabilities only depend on the utilities of the observation. -/
private lemma clipped_congr {R O : Type} [Fintype R] [DecidableEq O] {f : R → O} {h h' : R → ℝ} {r : R}
    (e : ∀ s, f s = f r → h s = h' s) : clippedLogit f h r = clippedLogit f h' r := by
  unfold clippedLogit logitProb
  simp only
  rw [e r rfl]
  congr 1
  exact sum_congr rfl fun s hs => by rw [e s (by simpa [rowsOf] using hs)]

private lemma personDraw_mem {g : Rng} {people : List ℝ} {d : ℕ} {s : g.State} {who : ℝ} (h : who ∈ people) (j : ℕ)
    (t : Fin d) : personDraw g people d s j who t =
      normalStream g people.length d j s ⟨people.idxOf who, List.idxOf_lt_length_of_mem h⟩ t := by
  rw [personDraw, dif_pos (List.idxOf_lt_length_of_mem h)]

variable {g : Rng} {mixCol : String} {people : List ℝ}

/-- The probability of a row under one draw is a function of the deviates of its person. -/
private lemma row_prob (hpanel : ∀ r s, df.val obsCol r = df.val obsCol s → df.val mixCol r = df.val mixCol s)
    {who : ℝ} (hw : who ∈ people) {r : Fin df.numRows} (hr : df.val mixCol r = who) {d : ℕ} (s : g.State) (t : Fin d) :
    clippedLogit (df.val obsCol) (mixedUtility df altCol mixCol cols mean sd col fun j who => personDraw g people d s j who t)
        r = clippedLogit (df.val obsCol) (utilityAt df altCol cols mean sd col fun j =>
          normalStream g people.length d j s ⟨people.idxOf who, List.idxOf_lt_length_of_mem hw⟩ t) r := by
  refine clipped_congr fun q hq => ?_
  have hq' : df.val mixCol q = who := (hpanel q r hq).trans hr
  simp only [mixedUtility, utilityAt, hq', personDraw_mem hw]

private lemma draws_unique {seed : Option IntArg} {st s s' : g.State} (h : DrawsFrom g seed st s)
    (h' : DrawsFrom g seed st s') : s = s' := by
  rcases h with ⟨e, h⟩ | ⟨k, -, e, h⟩ <;> rcases h' with ⟨e', h'⟩ | ⟨k', -, e', h'⟩
  · rw [h, h']
  · rw [e] at e'; cases e'
  · rw [e] at e'; cases e'
  · rw [e] at e'
    cases e'
    rw [h] at h'
    exact Except.ok.inj h'

variable {Ω : Type} [MeasurableSpace Ω] {μ : Measure Ω}

/-- The logarithm of a simulated probability: it is at most the logarithm of the probability on average, and deviates by
much only seldom. -/
private lemma log_error {X : Ω → ℝ} {p c : ℝ} (hμ : IsProbabilityMeasure μ) (hX : Measurable X) (hc : 0 < c)
    (hXc : ∀ ω, c ≤ X ω) (hX1 : ∀ ω, X ω ≤ 1) (hp : (∫ ω, X ω ∂μ) = p) {d : ℕ} (hd : 0 < d)
    (hdev : ∀ ε : ℝ, 0 < ε → μ {ω | ε ≤ |X ω - p|} ≤ ENNReal.ofReal (1 / (4 * (d : ℝ) * ε ^ 2))) :
    Integrable (fun ω => Real.log (X ω)) μ ∧ (∫ ω, Real.log (X ω) ∂μ) ≤ Real.log p ∧
    ∀ ε : ℝ, 0 < ε → μ {ω | ε ≤ |Real.log (X ω) - Real.log p|} ≤
      ENNReal.ofReal (1 / (4 * c ^ 2) / ((d : ℝ) * ε ^ 2)) := by
  have hXi : Integrable X μ := by
    refine (memLp_of_bounded (a := c) (b := 1) (ae_of_all _ fun ω => ⟨hXc ω, hX1 ω⟩) hX.aestronglyMeasurable 1).integrable
      le_rfl
  have hli : Integrable (fun ω => Real.log (X ω)) μ := by
    refine (memLp_of_bounded (a := Real.log c) (b := 0) (ae_of_all _ fun ω => ⟨?_, ?_⟩)
      (hX.log).aestronglyMeasurable 1).integrable le_rfl
    · exact Real.log_le_log hc (hXc ω)
    · exact Real.log_nonpos (hc.le.trans (hXc ω)) (hX1 ω)
  have hpc : c ≤ p := by
    rw [← hp]
    calc c = ∫ _ω, c ∂μ := by simp
      _ ≤ _ := integral_mono (integrable_const _) hXi hXc
  have hp0 : 0 < p := hc.trans_le hpc
  have htan : ∀ x y : ℝ, 0 < x → 0 < y → Real.log x - Real.log y ≤ (x - y) / y := by
    intro x y hx hy
    have := Real.log_le_sub_one_of_pos (div_pos hx hy)
    rw [Real.log_div hx.ne' hy.ne'] at this
    have e : (x - y) / y = x / y - 1 := by field_simp
    linarith
  refine ⟨hli, ?_, fun ε hε => ?_⟩
  · have h1 : (∫ ω, Real.log (X ω) ∂μ) ≤ ∫ ω, Real.log p + (X ω - p) / p ∂μ := by
      refine integral_mono hli ?_ fun ω => ?_
      · exact (integrable_const _).add ((hXi.sub (integrable_const _)).div_const _)
      · have := htan _ _ (hc.trans_le (hXc ω)) hp0
        simp only
        linarith
    refine h1.trans ?_
    have hq : Integrable (fun ω => (X ω - p) / p) μ := (hXi.sub (integrable_const p)).div_const p
    rw [integral_add (integrable_const _) hq, integral_div, integral_sub hXi (integrable_const _), hp]
    simp
  · have hsub : {ω | ε ≤ |Real.log (X ω) - Real.log p|} ⊆ {ω | c * ε ≤ |X ω - p|} := by
      intro ω hω
      have hx0 : 0 < X ω := hc.trans_le (hXc ω)
      have hω' : ε ≤ |Real.log (X ω) - Real.log p| := hω
      have h1 : |Real.log (X ω) - Real.log p| ≤ |X ω - p| / c := by
        rw [abs_le]
        constructor
        · have h2 := htan p (X ω) hp0 hx0
          have h3 : (p - X ω) / X ω ≤ |X ω - p| / c := by
            rw [abs_sub_comm]
            exact (div_le_div_of_nonneg_right (le_abs_self _) hx0.le).trans
              (div_le_div_of_nonneg_left (abs_nonneg _) hc (hXc ω))
          linarith
        · exact (htan (X ω) p hx0 hp0).trans ((div_le_div_of_nonneg_right (le_abs_self _) hp0.le).trans
            (div_le_div_of_nonneg_left (abs_nonneg _) hc hpc))
      have h4 := hω'.trans h1
      rw [le_div_iff₀ hc] at h4
      show c * ε ≤ _
      linarith
    refine (measure_mono hsub).trans ((hdev _ (mul_pos hc hε)).trans (le_of_eq ?_))
    congr 1
    have : (d : ℝ) ≠ 0 := by positivity
    field_simp

/-- A sum of quantities each of which is near its target. -/
private lemma sum_error : ∀ {l : List ℝ} {Y : ℝ → Ω → ℝ} {y : ℝ → ℝ} {B ε : ℝ},
    (∀ a ∈ l, μ {ω | ε ≤ |Y a ω - y a|} ≤ ENNReal.ofReal B) → 0 ≤ B → 0 < ε →
    μ {ω | l.length * ε ≤ |(l.map fun a => Y a ω).sum - (l.map y).sum| ∧ l ≠ []} ≤ ENNReal.ofReal (l.length * B) := by
  intro l Y y B ε hl hB hε
  have hsub : {ω | l.length * ε ≤ |(l.map fun a => Y a ω).sum - (l.map y).sum| ∧ l ≠ []} ⊆
      ⋃ i : Fin l.length, {ω | ε ≤ |Y (l.get i) ω - y (l.get i)|} := by
    rintro ω ⟨h, hne⟩
    by_contra hcon
    simp only [Set.mem_iUnion, not_exists, Set.mem_ofPred_eq, not_le] at hcon
    have key : ∀ l' : List ℝ, (∀ a ∈ l', |Y a ω - y a| < ε) → l' ≠ [] →
        |(l'.map fun a => Y a ω).sum - (l'.map y).sum| < l'.length * ε := by
      intro l'
      induction l' with
      | nil => intro _ h; exact absurd rfl h
      | cons a l' ih =>
        intro ha _
        rw [List.map_cons, List.map_cons, List.sum_cons, List.sum_cons, List.length_cons]
        have h1 := ha a (by simp)
        have h2 : |(l'.map fun a => Y a ω).sum - (l'.map y).sum| ≤ l'.length * ε := by
          rcases l'.eq_nil_or_concat with e | ⟨_, _, e⟩
          · subst e; simp
          · exact (ih (fun b hb => ha b (by simp [hb])) (by rw [e]; simp)).le
        push_cast
        rw [abs_lt] at *
        rw [abs_le] at h2
        constructor <;> nlinarith [h1.1, h1.2, h2.1, h2.2]
    refine absurd h (not_le.2 (key l (fun a ha => ?_) hne))
    obtain ⟨i, rfl⟩ := List.get_of_mem ha
    exact hcon i
  calc _ ≤ μ (⋃ i : Fin l.length, {ω | ε ≤ |Y (l.get i) ω - y (l.get i)|}) := measure_mono hsub
    _ ≤ ∑ i : Fin l.length, μ {ω | ε ≤ |Y (l.get i) ω - y (l.get i)|} := measure_iUnion_fintype_le _ _
    _ ≤ ∑ _i : Fin l.length, ENNReal.ofReal B := sum_le_sum fun i _ => hl _ (List.get_mem _ _)
    _ = ENNReal.ofReal (l.length * B) := by
      rw [sum_const, card_univ, Fintype.card_fin, nsmul_eq_mul, ENNReal.ofReal_mul (by positivity), ENNReal.ofReal_natCast]

/-! ## The properties -/

/-- **C115** (predictions). `predict` of a mixed logit model, with the generator in a random state from which it returns
independent standard normal draws: whatever the number `d` of draws, the probability predicted for a row is right on
average - its mean is the mixed logit probability of the row -, has variance at most `1 / (4 d)`, and is off by `ε` or
more with probability at most `1 / (4 d ε²)`. -/
theorem mixed_predict_simulation (g : Rng) {env : Env ℝ} {df : Frame ℝ} {a : ModelArgs ℝ} {m : ChoiceModel ℝ}
    (hm : createChoiceModel env "Mixed Logit" df a = .ok m) {vars : List String} (hvars : a.mixingVars = some vars)
    {s : List (String × SpecVal ℝ)} (hspec : m.args.specification = encodeAll s) (hkeys : (s.map Prod.fst).Nodup)
    (hnm : ∀ ns, m.args.names = some ns → (ns.map Prod.fst).Nodup)
    {alts : List ℝ} (ha : AltsOf m.data m.args.altIdCol alts)
    {col : ℕ → ℕ} (hname : ∀ j (h : j < vars.length), m.indVarNames[col j]? = some (.str vars[j]) ∧
      ∀ i < col j, m.indVarNames[i]? ≠ some (.str vars[j]))
    {L : Frame ℝ} (hL : AltsOf L m.args.altIdCol alts) {mixCol : String} (hmix : a.mixingIdCol = some mixCol)
    (hpanel : ∀ r q, L.val m.args.obsIdCol r = L.val m.args.obsIdCol q → L.val mixCol r = L.val mixCol q)
    {names : List String} {stored : ParamArrays} {given : Option (List ℝ)}
    {mean : List ℝ} (hmean : mean.length = (specColumns alts s).length) {sd : Fin vars.length → ℝ}
    (hpar : given.getD stored.index = mean ++ List.ofFn sd)
    {Ω : Type} [MeasurableSpace Ω] {μ : Measure Ω} (hμ : IsProbabilityMeasure μ) {S st : Ω → g.State}
    {seed : Ω → Option IntArg} (hS : ∀ ω, DrawsFrom g (seed ω) (st ω) (S ω)) {d : ℕ}
    (hN : StandardNormalStream g μ S vars.length (firstAppearance (L.colList mixCol)).length d)
    {v : Ω → Fin L.numRows → ℝ}
    (hv : ∀ ω, ∃ s', predictMixedFrame env g m names stored L (given.map fun x => ⟨x, none, none, none⟩) true none
      (.int d) (seed ω) (st ω) = .ok (.inl (v ω), s')) (r : Fin L.numRows) :
    let p := mixedProb L m.args.obsIdCol m.args.altIdCol (specColumns alts s) mean sd (fun j => col j) r
    (∫ ω, v ω r ∂μ) = p ∧ variance (fun ω => v ω r) μ ≤ 1 / (4 * (d : ℝ)) ∧
    ∀ ε : ℝ, 0 < ε → μ {ω | ε ≤ |v ω r - p|} ≤ ENNReal.ofReal (1 / (4 * (d : ℝ) * ε ^ 2)) := by
  intro p
  set people := firstAppearance (L.colList mixCol) with hpeople
  have hw : L.val mixCol r ∈ people := mem_firstAppearance.2 (mem_colList.2 ⟨r, rfl⟩)
  obtain ⟨ω₀⟩ := nonempty_of_isProbabilityMeasure μ
  have key : ∀ ω, 0 < d ∧ v ω r = Spec.average fun t : Fin d =>
      clippedLogit (L.val m.args.obsIdCol) (utilityAt L m.args.altIdCol (specColumns alts s) mean sd (fun j => col j)
        fun j => normalStream g people.length d j (S ω) ⟨people.idxOf (L.val mixCol r), List.idxOf_lt_length_of_mem hw⟩ t)
          r := by
    intro ω
    obtain ⟨mc, d', s₀, θ, k1, -, -, -, k5, k6, k7, k8, -, k10⟩ :=
      (mixed_predict_iff g hm hvars hspec hkeys hnm ha hname hL names stored given true none (.int d) (seed ω) (st ω)
        _).1 (hv ω)
    rw [hmix] at k1
    cases k1
    have hdd : d' = d := by
      have := IntArg.int.inj k5
      exact_mod_cast this.symm
    subst hdd
    obtain rfl := draws_unique k7 (hS ω)
    refine ⟨k6, ?_⟩
    rcases k10 with ⟨-, -, k10⟩ | ⟨h, -⟩
    · have k11 : v ω = _ := Sum.inl.inj k10
      rw [k11]
      rw [hpar, List.ofFn_add] at k8
      obtain ⟨hθ1, hθ2⟩ := List.append_inj k8 (by simp [hmean])
      have hθ2' : (fun q : Fin vars.length => θ (Fin.natAdd (specColumns alts s).length q)) = sd :=
        List.ofFn_injective hθ2
      unfold averagedProb
      congr 1
      funext t
      unfold drawnUtility
      rw [hθ2', show (List.ofFn fun i => θ (Fin.castAdd vars.length i)) = mean from hθ1]
      exact row_prob hpanel hw rfl _ t
    · cases h
  obtain ⟨-, h2, h3, h4⟩ := simulation_error hN hμ (key ω₀).1 ⟨people.idxOf (L.val mixCol r), List.idxOf_lt_length_of_mem hw⟩
    (f := fun z => clippedLogit (L.val m.args.obsIdCol) (utilityAt L m.args.altIdCol (specColumns alts s) mean sd
      (fun j => col j) z) r) (clipped_measurable r) (fun z => (logit_bounds _ _ r).1.le) (fun z => (logit_bounds _ _ r).2)
  simp only [fun ω => (key ω).2]
  exact ⟨h2, h3, h4⟩

/-- **C115** (log-likelihoods). The simulated log-likelihood that a fit of a mixed logit model maximises, with the
generator in a random state from which it returns independent standard normal draws: on average it is at most the mixed
logit log-likelihood of the table (minus the penalty), and it is off by `ε` or more with a probability of at most
`C / (d ε²)`, where `d` is the number of draws and `C` depends on the table only, not on the parameters. -/
theorem mixed_loglik_simulation (g : Rng) {env : Env ℝ} {df : Frame ℝ} {a : ModelArgs ℝ}
    {m : ChoiceModel ℝ} (hm : createChoiceModel env "Mixed Logit" df a = .ok m)
    {mixCol : String} (hmix : a.mixingIdCol = some mixCol) (hcol : mixCol ∈ m.data.columns)
    {vars : List String} (hvars : a.mixingVars = some vars) (hne : vars ≠ [])
    {s : List (String × SpecVal ℝ)} (hspec : m.args.specification = encodeAll s)
    (hkeys : (s.map Prod.fst).Nodup) (hnm : ∀ ns, m.args.names = some ns → (ns.map Prod.fst).Nodup)
    {alts : List ℝ} (ha : AltsOf m.data m.args.altIdCol alts) (hrows : 0 < m.data.numRows)
    (hy : ∀ r, m.data.val m.args.choiceCol r = 0 ∨ m.data.val m.args.choiceCol r = 1)
    (hpanel : ∀ r q, m.data.val m.args.obsIdCol r = m.data.val m.args.obsIdCol q → m.data.val mixCol r = m.data.val mixCol q)
    {col : Fin vars.length → ℕ}
    (hname : ∀ j, m.indVarNames[col j]? = some (.str vars[j]) ∧
      ∀ i < col j, m.indVarNames[i]? ≠ some (.str vars[j])) :
    ∃ C : ℝ, ∀ {Ω : Type} [MeasurableSpace Ω] {μ : Measure Ω} (_ : IsProbabilityMeasure μ) {S st : Ω → g.State}
      {seed : Ω → Option IntArg} (_ : ∀ ω, DrawsFrom g (seed ω) (st ω) (S ω)) {d : ℕ} (_ : 0 < d)
      (_ : StandardNormalStream g μ S vars.length (firstAppearance (m.data.colList mixCol)).length d)
      {mean : List ℝ} (_ : mean.length = (specColumns alts s).length) (sd : Fin vars.length → ℝ) (ridge : Option ℝ)
      {LL : Ω → ℝ} (_ : ∀ ω, fitMixedLogLik g m (.int d) (seed ω) ridge (mean ++ List.ofFn sd) (st ω) = .ok (LL ω)),
      let ll := mixedLogLik m.data m.args.obsIdCol m.args.altIdCol (specColumns alts s) mean sd col mixCol
        m.args.choiceCol (firstAppearance (m.data.colList mixCol)) -
          ridge.getD 0 * ((mean ++ List.ofFn sd).map fun x => x ^ 2).sum
      Integrable LL μ ∧ (∫ ω, LL ω ∂μ) ≤ ll ∧
      ∀ ε : ℝ, 0 < ε → μ {ω | ε ≤ |LL ω - ll|} ≤ ENNReal.ofReal (C / ((d : ℝ) * ε ^ 2)) := by
  set people := firstAppearance (m.data.colList mixCol) with hpeople
  obtain ⟨c0, c1⟩ := floor_bounds hrows
  set c := floorProb m.data ^ m.data.numRows with hc
  have hcpos : 0 < c := pow_pos c0 _
  have hpne : people ≠ [] := by
    intro e
    have : m.data.val mixCol ⟨0, hrows⟩ ∈ people := mem_firstAppearance.2 (mem_colList.2 ⟨_, rfl⟩)
    rw [e] at this
    cases this
  have hP : (0 : ℝ) < people.length := by exact_mod_cast List.length_pos_of_ne_nil hpne
  refine ⟨people.length * (1 / (4 * c ^ 2)) * people.length ^ 2, ?_⟩
  intro Ω _ μ hμ S st seed hS d hd hN mean hmean sd ridge LL hLL ll
  obtain ⟨ω₀⟩ := nonempty_of_isProbabilityMeasure μ
  have hfit : ∀ ω, fitMixedLogLik g m (.int d) (seed ω) ridge (mean ++ List.ofFn sd) (st ω) = _ := fun ω =>
    mixed_fit_maximises_table_logLik g hm hmix hcol hvars hne hspec hkeys hnm ha hrows hy hname hd (hS ω) hmean sd ridge
  -- the statistic of a person
  let f : ℝ → (Fin vars.length → ℝ) → ℝ := fun who z =>
    ∏ r with m.data.val mixCol r = who ∧ m.data.val m.args.choiceCol r = 1,
      clippedLogit (m.data.val m.args.obsIdCol) (utilityAt m.data m.args.altIdCol (specColumns alts s) mean sd col z) r
  have hfm : ∀ who, Measurable (f who) := fun who => Finset.measurable_prod _ fun r _ => clipped_measurable r
  have hfb : ∀ who z, c ≤ f who z ∧ f who z ≤ 1 := fun who z => product_bounds hrows _ _
  let X : ℝ → Ω → ℝ := fun who ω => if h : who ∈ people then Spec.average fun t : Fin d => f who fun j =>
    normalStream g people.length d j (S ω) ⟨people.idxOf who, List.idxOf_lt_length_of_mem h⟩ t else 0
  have hLLX : ∀ ω, LL ω = (people.map fun who => Real.log (X who ω)).sum -
      ridge.getD 0 * ((mean ++ List.ofFn sd).map fun x => x ^ 2).sum := by
    intro ω
    have h1 := (hLL ω).symm.trans (hfit ω)
    split at h1
    · rw [Except.ok.inj h1]
      congr 1
      unfold tableSimLogLik
      congr 1
      refine List.map_congr_left fun who hw => ?_
      have hXw : X who ω = Spec.average fun t : Fin d => f who fun j =>
          normalStream g people.length d j (S ω) ⟨people.idxOf who, List.idxOf_lt_length_of_mem hw⟩ t := dif_pos hw
      rw [hXw]
      refine congrArg Real.log (congrArg Spec.average (funext fun t => ?_))
      refine prod_congr rfl fun r hr => ?_
      exact row_prob hpanel hw (mem_filter.1 hr).2.1 _ t
    · cases h1
  have hlog : ∀ who ∈ people, Integrable (fun ω => Real.log (X who ω)) μ ∧
      (∫ ω, Real.log (X who ω) ∂μ) ≤ Real.log (normalMean vars.length (f who)) ∧
      ∀ ε : ℝ, 0 < ε → μ {ω | ε ≤ |Real.log (X who ω) - Real.log (normalMean vars.length (f who))|} ≤
        ENNReal.ofReal (1 / (4 * c ^ 2) / ((d : ℝ) * ε ^ 2)) := by
    intro who hw
    obtain ⟨e1, e2, -, e4⟩ := simulation_error hN hμ hd ⟨people.idxOf who, List.idxOf_lt_length_of_mem hw⟩ (hfm who)
      (fun z => hcpos.le.trans (hfb who z).1) (fun z => (hfb who z).2)
    have hX : X who = fun ω => Spec.average fun t : Fin d => f who fun j =>
        normalStream g people.length d j (S ω) ⟨people.idxOf who, List.idxOf_lt_length_of_mem hw⟩ t := by
      funext ω
      simp only [X, dif_pos hw]
    have havg : ∀ ω, c ≤ X who ω ∧ X who ω ≤ 1 := by
      intro ω
      have hd' : (0 : ℝ) < d := by exact_mod_cast hd
      rw [hX]
      simp only [Spec.average, Fintype.card_fin]
      rw [inv_mul_le_iff₀ hd', le_inv_mul_iff₀ hd']
      constructor
      · calc (d : ℝ) * c = ∑ _t : Fin d, c := by simp
          _ ≤ _ := sum_le_sum fun t _ => (hfb who _).1
      · calc _ ≤ ∑ _t : Fin d, (1 : ℝ) := sum_le_sum fun t _ => (hfb who _).2
          _ = d * 1 := by simp
    rw [← hX] at e1 e2 e4
    exact log_error hμ e1 hcpos (fun ω => (havg ω).1) (fun ω => (havg ω).2) e2 hd e4
  have hint : Integrable (fun ω => (people.map fun who => Real.log (X who ω)).sum) μ ∧
      (∫ ω, (people.map fun who => Real.log (X who ω)).sum ∂μ) ≤
        (people.map fun who => Real.log (normalMean vars.length (f who))).sum := by
    have : ∀ l : List ℝ, (∀ who ∈ l, who ∈ people) →
        Integrable (fun ω => (l.map fun who => Real.log (X who ω)).sum) μ ∧
        (∫ ω, (l.map fun who => Real.log (X who ω)).sum ∂μ) ≤
          (l.map fun who => Real.log (normalMean vars.length (f who))).sum := by
      intro l
      induction l with
      | nil => intro _; simp
      | cons who l ih =>
        intro hl
        obtain ⟨i1, i2⟩ := ih fun b hb => hl b (by simp [hb])
        obtain ⟨j1, j2, -⟩ := hlog who (hl who (by simp))
        simp only [List.map_cons, List.sum_cons]
        refine ⟨j1.add i1, ?_⟩
        rw [integral_add j1 i1]
        exact add_le_add j2 i2
    exact this people fun _ h => h
  have hll : ll = (people.map fun who => Real.log (normalMean vars.length (f who))).sum -
      ridge.getD 0 * ((mean ++ List.ofFn sd).map fun x => x ^ 2).sum := rfl
  have hLLf : LL = fun ω => (people.map fun who => Real.log (X who ω)).sum -
      ridge.getD 0 * ((mean ++ List.ofFn sd).map fun x => x ^ 2).sum := funext hLLX
  refine ⟨?_, ?_, fun ε hε => ?_⟩
  · rw [hLLf]
    exact hint.1.sub (integrable_const _)
  · rw [hLLf, hll, integral_sub hint.1 (integrable_const _)]
    simpa using hint.2
  · have h1 := sum_error (μ := μ) (l := people) (Y := fun who ω => Real.log (X who ω))
      (y := fun who => Real.log (normalMean vars.length (f who))) (ε := ε / people.length)
      (fun who hw => (hlog who hw).2.2 _ (by positivity)) (by positivity) (by positivity)
    have hset : {ω | ε ≤ |LL ω - ll|} = {ω | people.length * (ε / people.length) ≤
        |(people.map fun who => Real.log (X who ω)).sum -
          (people.map fun who => Real.log (normalMean vars.length (f who))).sum| ∧ people ≠ []} := by
      ext ω
      simp only [Set.mem_ofPred_eq]
      rw [mul_div_cancel₀ _ hP.ne', hLLX ω, hll, and_iff_left hpne]
      simp
    rw [hset]
    refine h1.trans (le_of_eq ?_)
    congr 1
    have : (d : ℝ) ≠ 0 := by positivity
    field_simp

/-- **C115** (clipping). The probability that predictions estimate differs from the textbook mixed logit probability by
at most the probability that a utility of the observation exceeds 700 in absolute value. -/
theorem mixed_clipping_error (df : Frame ℝ) (obsCol altCol : String) (cols : List (ColDesc ℝ)) (mean : List ℝ) {n : ℕ}
    (sd : Fin n → ℝ) (col : Fin n → ℕ) (r : Fin df.numRows) :
    |mixedProb df obsCol altCol cols mean sd col r - textbookMixedProb df obsCol altCol cols mean sd col r| ≤
      (Measure.pi fun _ : Fin n => gaussianReal 0 1).real
        {z | ∃ q, df.val obsCol q = df.val obsCol r ∧ 700 < |utilityAt df altCol cols mean sd col z q|} := by
  set ν := Measure.pi fun _ : Fin n => gaussianReal 0 1 with hν
  set A := {z : Fin n → ℝ | ∃ q, df.val obsCol q = df.val obsCol r ∧ 700 < |utilityAt df altCol cols mean sd col z q|}
    with hA
  have hAm : MeasurableSet A := by
    have : A = ⋃ q : Fin df.numRows, {z | df.val obsCol q = df.val obsCol r ∧
        700 < |utilityAt df altCol cols mean sd col z q|} := by
      ext z; simp [hA]
    rw [this]
    refine MeasurableSet.iUnion fun q => ?_
    by_cases h : df.val obsCol q = df.val obsCol r
    · simp only [h, true_and]
      exact measurableSet_lt measurable_const (utility_measurable q).abs
    · simp [h]
  have hi : ∀ {f : (Fin n → ℝ) → ℝ}, Measurable f → (∀ z, 0 ≤ f z ∧ f z ≤ 1) → Integrable f ν := fun hf hb =>
    (memLp_of_bounded (a := 0) (b := 1) (ae_of_all _ hb) hf.aestronglyMeasurable 1).integrable le_rfl
  have h1 : Integrable (fun z => clippedLogit (df.val obsCol) (utilityAt df altCol cols mean sd col z) r) ν :=
    hi (clipped_measurable r) fun z => ⟨(logit_bounds _ _ r).1.le, (logit_bounds _ _ r).2⟩
  have h2 : Integrable (fun z => logitProb (df.val obsCol) (utilityAt df altCol cols mean sd col z) r) ν :=
    hi (logit_measurable utility_measurable r) fun z => ⟨(logit_bounds _ _ r).1.le, (logit_bounds _ _ r).2⟩
  unfold mixedProb textbookMixedProb normalMean
  rw [← integral_sub h1 h2]
  refine (abs_integral_le_integral_abs).trans ?_
  have h3 : (∫ z, A.indicator (fun _ => (1 : ℝ)) z ∂ν) = ν.real A := by
    rw [integral_indicator hAm]
    simp
  rw [← h3]
  refine integral_mono (h1.sub h2).abs ((integrable_const _).indicator hAm) fun z => ?_
  by_cases hz : z ∈ A
  · rw [Set.indicator_of_mem hz]
    have a1 := logit_bounds (df.val obsCol) (fun q => clip700 (utilityAt df altCol cols mean sd col z q)) r
    have a2 := logit_bounds (df.val obsCol) (utilityAt df altCol cols mean sd col z) r
    simp only [clippedLogit]
    rw [abs_le]
    constructor <;> linarith [a1.1, a1.2, a2.1, a2.2]
  · rw [Set.indicator_of_notMem hz]
    have hq : ∀ q, df.val obsCol q = df.val obsCol r → clip700 (utilityAt df altCol cols mean sd col z q) =
        utilityAt df altCol cols mean sd col z q := by
      intro q hq
      have : ¬ 700 < |utilityAt df altCol cols mean sd col z q| := fun h => hz ⟨q, hq, h⟩
      rw [not_lt, abs_le] at this
      rw [clip700, min_eq_left this.2, max_eq_right this.1]
    have e : clippedLogit (df.val obsCol) (utilityAt df altCol cols mean sd col z) r =
        logitProb (df.val obsCol) (utilityAt df altCol cols mean sd col z) r := by
      unfold clippedLogit logitProb
      simp only
      rw [hq r rfl]
      congr 1
      exact sum_congr rfl fun s hs => by rw [hq s (by simpa [rowsOf] using hs)]
    simp [e]

/-! ## Non-vacuity -/

/-- A generator that reads its draws off a three-dimensional array: the first index counts the arrays returned. -/
def tapeRng : Rng where
  State := ℕ × (ℕ → ℕ → ℕ → ℝ)
  seed := fun _ => .error .valueError
  normals := fun _ _ s => (fun i t => s.2 s.1 i t, (s.1 + 1, s.2))
  choice := fun l size s => ((List.range size).filterMap fun i => l[i % l.length]?, s)

private lemma tape_stream (m d : ℕ) (w : ℕ → ℕ → ℕ → ℝ) : ∀ (j k : ℕ) (i : Fin m) (t : Fin d),
    normalStream tapeRng m d j (k, w) i t = w (k + j) i t
  | 0, k, i, t => rfl
  | j + 1, k, i, t => by
    have h := tape_stream m d w j (k + 1) i t
    rw [show k + 1 + j = k + (j + 1) from by omega] at h
    exact h

/-- The state of the generator when the array is filled with the given draws. -/
def tapeState {n P d : ℕ} (ω : Fin n × Fin P × Fin d → ℝ) : tapeRng.State :=
  (0, fun j i t => if h : j < n ∧ i < P ∧ t < d then ω (⟨j, h.1⟩, ⟨i, h.2.1⟩, ⟨t, h.2.2⟩) else 0)

theorem tape_standard (n P d : ℕ) : StandardNormalStream tapeRng
    (Measure.pi fun _ : Fin n × Fin P × Fin d => gaussianReal 0 1) tapeState n P d := by
  have e : ∀ (ω : Fin n × Fin P × Fin d → ℝ) (j : Fin n) (i : Fin P) (t : Fin d),
      normalStream tapeRng P d j (tapeState ω) i t = ω (j, i, t) := by
    intro ω j i t
    rw [tapeState, tape_stream, Nat.zero_add, dif_pos ⟨j.2, i.2, t.2⟩]
  refine ⟨?_, fun j i t => ?_, fun j i t => ?_⟩
  · simp only [e]
    exact iIndepFun_pi (X := fun _ => id) fun _ => aemeasurable_id
  · simp only [e]
    exact measurable_pi_apply _
  · simp only [e]
    exact (measurePreserving_eval (fun _ : Fin n × Fin P × Fin d => gaussianReal 0 1) (j, i, t)).map_eq

/-- Non-vacuity of `mixed_predict_simulation` and `mixed_loglik_simulation`: two people, one random coefficient, three
draws read off an array of independent standard normal numbers. -/
example (env : Env ℝ) (henv : env.badCol = fun _ => false) (names : List String) (b s : ℝ) :
    ∃ m, createChoiceModel env "Mixed Logit" exPeople exPeopleArgs = .ok m ∧
      (∃ v : (Fin 1 × Fin 2 × Fin 3 → ℝ) → Fin 4 → ℝ,
        (∀ ω, ∃ s', predictMixedFrame env tapeRng m names ⟨[b, s], none, none, none⟩ exPeople none true none (.int 3)
          none (tapeState ω) = .ok (.inl (v ω), s')) ∧
        ∀ r, (∫ ω, v ω r ∂Measure.pi fun _ => gaussianReal 0 1) =
          mixedProb exPeople "obs" "alt" [.same "x"] [b] (fun _ : Fin 1 => s) (fun _ => 0) r) ∧
      ∃ LL : (Fin 1 × Fin 2 × Fin 3 → ℝ) → ℝ,
        (∀ ω, fitMixedLogLik tapeRng m (.int 3) none none [b, s] (tapeState ω) = .ok (LL ω)) ∧
        (∫ ω, LL ω ∂Measure.pi fun _ => gaussianReal 0 1) ≤
          mixedLogLik exPeople "obs" "alt" [.same "x"] [b] (fun _ : Fin 1 => s) (fun _ => 0) "person" "choice"
            [1, 2] := by
  obtain ⟨m, hm, ha, hd, hn⟩ := exPeople_model env henv (L := exPeople) rfl exPeople_alts
  have hpeople : firstAppearance (exPeople.colList "person") = [1, 2] := by
    simp [exPeople, Frame.colList, firstAppearance]
  have hpan : ∀ r q, exPeople.val "obs" r = exPeople.val "obs" q → exPeople.val "person" r = exPeople.val "person" q :=
    fun r q h => h
  have hS : ∀ ω : Fin 1 × Fin 2 × Fin 3 → ℝ, DrawsFrom tapeRng none (tapeState ω) (tapeState ω) :=
    fun ω => Or.inl ⟨rfl, rfl⟩
  have hv : ∀ ω : Fin 1 × Fin 2 × Fin 3 → ℝ, ∃ v s', predictMixedFrame env tapeRng m names ⟨[b, s], none, none, none⟩
      exPeople none true none (.int 3) none (tapeState ω) = .ok (.inl v, s') := by
    intro ω
    have key := mixed_predict_iff tapeRng hm (vars := ["x"]) rfl (s := [("x", .allSame)]) (by rw [ha]; rfl) (by simp)
      (by rw [ha]; intro ns h; cases h) (alts := [1, 2]) (by rw [ha, hd]; exact exPeople_alts) (col := fun _ => 0)
      (by
        intro j hj
        obtain rfl : j = 0 := by simpa using hj
        simp [hn])
      (L := exPeople) (by rw [ha]; exact exPeople_alts) names ⟨[b, s], none, none, none⟩ none true none (.int 3) none
      (tapeState ω)
    obtain ⟨s', hs'⟩ := (key (.inl _)).2 ⟨"person", 3, tapeState ω, fun i => if i.val = 0 then b else s, rfl, by simp,
      by decide, by
        rw [ha]
        simp [exPeopleArgs, exPeople], rfl, by norm_num, hS ω, by
        simp [specColumns, SpecVal.columns], by simp, Or.inl ⟨rfl, rfl, rfl⟩⟩
    exact ⟨_, s', hs'⟩
  choose v hv using hv
  refine ⟨m, hm, ⟨v, hv, fun r => ?_⟩, ?_⟩
  · have := (mixed_predict_simulation tapeRng hm (vars := ["x"]) rfl (s := [("x", .allSame)]) (by rw [ha]; rfl) (by simp)
      (by rw [ha]; intro ns h; cases h) (alts := [1, 2]) (by rw [ha, hd]; exact exPeople_alts) (col := fun _ => 0)
      (by
        intro j hj
        obtain rfl : j = 0 := by simpa using hj
        simp [hn])
      (L := exPeople) (by rw [ha]; exact exPeople_alts) (mixCol := "person") rfl (by rw [ha]; exact hpan)
      (names := names) (stored := ⟨[b, s], none, none, none⟩) (given := none) (mean := [b])
      (by simp [specColumns, SpecVal.columns]) (sd := fun _ => s) (by simp)
      (μ := Measure.pi fun _ : Fin 1 × Fin 2 × Fin 3 => gaussianReal 0 1) inferInstance (seed := fun _ => none) hS (d := 3)
      (by rw [hpeople]; exact tape_standard 1 2 3) (v := v) hv r).1
    rw [ha] at this
    exact this
  · have hcol : "person" ∈ m.data.columns := by rw [hd]; simp [exPeople]
    have hspec : m.args.specification = encodeAll [("x", SpecVal.allSame)] := by rw [ha]; rfl
    have hnm : ∀ ns, m.args.names = some ns → (ns.map Prod.fst).Nodup := by rw [ha]; intro ns h; cases h
    have hal : AltsOf m.data m.args.altIdCol [1, 2] := by rw [ha, hd]; exact exPeople_alts
    have hrows : 0 < m.data.numRows := by rw [hd]; decide
    have hy : ∀ r, m.data.val m.args.choiceCol r = 0 ∨ m.data.val m.args.choiceCol r = 1 := by
      rw [hd, ha]
      intro r
      change Fin 4 at r
      fin_cases r <;> simp [exPeople, exPeopleArgs]
    have hname : ∀ j : Fin ["x"].length, m.indVarNames[(fun _ => 0 : Fin ["x"].length → ℕ) j]? = some (.str ["x"][j]) ∧
        ∀ i < (fun _ => 0 : Fin ["x"].length → ℕ) j, m.indVarNames[i]? ≠ some (.str ["x"][j]) := by
      intro j
      obtain rfl : j = 0 := Subsingleton.elim (α := Fin 1) _ _
      simp [hn]
    have hLL := fun ω => mixed_fit_maximises_table_logLik tapeRng hm (mixCol := "person") rfl hcol (vars := ["x"]) rfl
      (by simp) hspec (by simp) hnm hal hrows hy hname (d := 3) (by norm_num) (hS ω) (mean := [b])
      (by simp [specColumns, SpecVal.columns]) (fun _ => s) none
    have hsort : (m.data.colList m.args.obsIdCol).Pairwise (· ≤ ·) := by
      rw [hd, ha]
      simp [exPeople, exPeopleArgs, Frame.colList]
    simp only [if_pos hsort] at hLL
    obtain ⟨C, hC⟩ := mixed_loglik_simulation tapeRng hm (mixCol := "person") rfl hcol (vars := ["x"]) rfl
      (by simp) hspec (by simp) hnm hal hrows hy (by rw [hd, ha]; exact hpan) hname
    obtain ⟨-, h2, -⟩ := hC (μ := Measure.pi fun _ : Fin 1 × Fin 2 × Fin 3 => gaussianReal 0 1) inferInstance
      (seed := fun _ => none) hS (d := 3) (by norm_num) (by rw [hd, hpeople]; exact tape_standard 1 2 3) (mean := [b])
      (by simp [specColumns, SpecVal.columns]) (fun _ => s) none hLL
    refine ⟨_, hLL, h2.trans_eq ?_⟩
    rw [hd, ha, hpeople]
    simp only [Option.getD_none, zero_mul, sub_zero]
    rfl

end

end Pylogit
