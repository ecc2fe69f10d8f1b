import Verif.Props.FitUnits
import Verif.Props.LikelihoodRatioCases

/-!
# C127: concrete cases
-/

open Finset Matrix

namespace Pylogit

open Spec

noncomputable section

namespace Units

/-- Three observations of three alternatives. Each chose another one, and the variable is larger in one of the other rows
and smaller in the other one. -/
def exNine (c : ℝ) : Frame ℝ where
  columns := ["obs", "alt", "x", "y"]
  numRows := 9
  val := fun v => if v = "alt" then ![1, 2, 3, 1, 2, 3, 1, 2, 3]
    else if v = "x" then ![0, -c, 2 * c, -c, 0, 2 * c, -c, 2 * c, 0]
    else if v = "y" then ![1, 0, 0, 0, 1, 0, 0, 0, 1] else ![1, 1, 1, 2, 2, 2, 3, 3, 3]

theorem exNine_ids (c : ℝ) : AltsOf (exNine c) "alt" [1, 2, 3] ∧ AltsOf (exNine c) "obs" [1, 2, 3] := by
  refine ⟨⟨by norm_num, fun x => ⟨?_, ?_⟩⟩, ⟨by norm_num, fun x => ⟨?_, ?_⟩⟩⟩
  · intro hx
    simp only [List.mem_cons, List.not_mem_nil, or_false] at hx
    rcases hx with rfl | rfl | rfl
    · exact ⟨(0 : Fin 9), rfl⟩
    · exact ⟨(1 : Fin 9), rfl⟩
    · exact ⟨(2 : Fin 9), rfl⟩
  · rintro ⟨r, rfl⟩
    change Fin 9 at r
    fin_cases r <;> simp [exNine]
  · intro hx
    simp only [List.mem_cons, List.not_mem_nil, or_false] at hx
    rcases hx with rfl | rfl | rfl
    · exact ⟨(0 : Fin 9), rfl⟩
    · exact ⟨(3 : Fin 9), rfl⟩
    · exact ⟨(6 : Fin 9), rfl⟩
  · rintro ⟨r, rfl⟩
    change Fin 9 at r
    fin_cases r <;> simp [exNine]

theorem exNine_chosen (c : ℝ) : ∃ chosen, OneChoicePerObs (exNine c) "obs" "y" chosen := by
  have hobs : ∀ r : Fin 9, (exNine c).val "obs" r = ![1, 1, 1, 2, 2, 2, 3, 3, 3] r := fun r => by simp [exNine]
  have hy : ∀ r : Fin 9, (exNine c).val "y" r = ![1, 0, 0, 0, 1, 0, 0, 0, 1] r := fun r => by simp [exNine]
  refine ⟨fun o => (if o = 1 then 0 else if o = 2 then 4 else 8 : Fin 9), fun r => ?_, fun r => ?_, fun r => ?_⟩
  · change Fin 9 at r
    rw [hobs, hobs]
    fin_cases r <;> norm_num <;> rfl
  · change Fin 9 at r
    rw [hy, hobs]
    fin_cases r <;> norm_num <;> rfl
  · change Fin 9 at r
    intro hr
    rw [hy]
    rw [hobs] at hr
    fin_cases r <;> norm_num at hr ⊢ <;> first | rfl | exact (hr rfl).elim

/-- The variable `x` in other units. -/
def exUnits (c : ℝ) (v : String) : ℝ := if v = "x" then c else 1

theorem exNine_units (c : ℝ) : inUnits (exNine 1) (exUnits c) = exNine c := by
  unfold inUnits exNine
  congr 1
  funext v r
  change Fin 9 at r
  by_cases h1 : v = "x"
  · subst h1
    fin_cases r <;> simp [exUnits, mul_comm]
  · simp [exUnits, h1]

theorem exUnits_only {c : ℝ} (hc : c ≠ 0) : OnlyVariables exLogitArgs (exUnits c) :=
  ⟨by simp [exUnits, exLogitArgs], by simp [exUnits, exLogitArgs], by simp [exUnits, exLogitArgs], by simp [exUnits],
    fun v => by unfold exUnits; split_ifs; exacts [hc, one_ne_zero]⟩

abbrev exCols : List (ColDesc ℝ) := specColumns [1, 2, 3] [("x", .allSame)]

theorem exCols_length : exCols.length = 1 := by simp [exCols, specColumns, SpecVal.columns]

theorem exNine_index (c : ℝ) (x : Fin exCols.length → ℝ) (r : Fin 9) :
    rowIndex (exNine c) "alt" exCols (List.ofFn x) r = (exNine c).val "x" r * x ⟨0, by simp [exCols_length]⟩ := by
  simp [rowIndex, exCols, specColumns, SpecVal.columns, ColDesc.value]

private lemma nine_logLik {f u : Fin 9 → ℝ} {A B : ℝ} (hf : f = ![1, 1, 1, 2, 2, 2, 3, 3, 3])
    (hE : ∀ r, Real.exp (clip700 (u r)) = ![1, A, B, A, 1, B, A, B, 1] r) (a : Fin 9 → ℝ) :
    clippedLogLik f a u = ∑ r, a r * Real.log ((![1, A, B, A, 1, B, A, B, 1] : Fin 9 → ℝ) r / (1 + A + B)) := by
  unfold clippedLogLik clippedLogit logitProb rowsOf
  simp only [hE]
  subst hf
  refine Finset.sum_congr rfl fun r _ => ?_
  congr 3
  rw [Finset.sum_filter]
  fin_cases r <;> simp [Fin.sum_univ_succ] <;> norm_num <;> ring

/-- The log-likelihood of the data with each observation counted `w` times. -/
theorem exNine_logLik (c : ℝ) (w : ℝ → ℝ → ℝ) (hw : ∀ o, w o 0 = 0) (x : Fin exCols.length → ℝ) :
    clippedLogLik ((exNine c).val "obs") (fun r => w ((exNine c).val "obs" r) ((exNine c).val "y" r))
        (describedMatrix (exNine c) "alt" exCols exCols.length *ᵥ x) =
      -(w 1 1 + w 2 1 + w 3 1) * Real.log (1 + Real.exp (clip700 (-c * x ⟨0, by simp [exCols_length]⟩)) +
        Real.exp (clip700 (2 * c * x ⟨0, by simp [exCols_length]⟩))) := by
  rw [described_dot rfl]
  have hu : (fun r => rowIndex (exNine c) "alt" exCols (List.ofFn x) r) =
      fun r => (exNine c).val "x" r * x ⟨0, by simp [exCols_length]⟩ := funext fun r => exNine_index c x r
  rw [hu]
  generalize x ⟨0, by simp [exCols_length]⟩ = t
  have hobs : (exNine c).val "obs" = ![1, 1, 1, 2, 2, 2, 3, 3, 3] := by simp [exNine]
  have hy : (exNine c).val "y" = ![1, 0, 0, 0, 1, 0, 0, 0, 1] := by simp [exNine]
  have hx : (exNine c).val "x" = ![0, -c, 2 * c, -c, 0, 2 * c, -c, 2 * c, 0] := by simp [exNine]
  have h0 : clip700 0 = 0 := by norm_num [clip700]
  have hE : ∀ r : Fin 9, Real.exp (clip700 ((exNine c).val "x" r * t)) =
      ![1, Real.exp (clip700 (-c * t)), Real.exp (clip700 (2 * c * t)), Real.exp (clip700 (-c * t)), 1,
        Real.exp (clip700 (2 * c * t)), Real.exp (clip700 (-c * t)), Real.exp (clip700 (2 * c * t)), 1] r := by
    rw [hx]
    intro r
    fin_cases r <;> simp [h0]
  refine (nine_logLik (f := (exNine c).val "obs") (u := fun r => (exNine c).val "x" r * t) hobs hE _).trans ?_
  rw [hobs, hy]
  generalize Real.exp (clip700 (-c * t)) = A
  generalize Real.exp (clip700 (2 * c * t)) = B
  simp [Fin.sum_univ_succ, hw]
  ring

/-- Where the log-likelihood is at least that at zero, no utility is clipped. -/
theorem exNine_best {c : ℝ} {w : ℝ → ℝ → ℝ} (hw : ∀ o, w o 0 = 0) (hpos : 0 < w 1 1 + w 2 1 + w 3 1)
    {x : Fin exCols.length → ℝ} (h : clippedLogLik ((exNine c).val "obs")
        (fun r => w ((exNine c).val "obs" r) ((exNine c).val "y" r))
        (describedMatrix (exNine c) "alt" exCols exCols.length *ᵥ 0) ≤ clippedLogLik ((exNine c).val "obs")
        (fun r => w ((exNine c).val "obs" r) ((exNine c).val "y" r))
        (describedMatrix (exNine c) "alt" exCols exCols.length *ᵥ x)) (r : Fin 9) :
    |rowIndex (exNine c) "alt" exCols (List.ofFn x) r| < 700 := by
  rw [exNine_logLik c w hw, exNine_logLik c w hw] at h
  rw [exNine_index]
  revert h
  generalize x ⟨0, by simp [exCols_length]⟩ = t
  intro h
  have h0 : clip700 0 = 0 := by norm_num [clip700]
  simp only [Pi.zero_apply, mul_zero, h0, Real.exp_zero] at h
  have hlog := le_of_mul_le_mul_left (by linarith :
    (w 1 1 + w 2 1 + w 3 1) * Real.log (1 + Real.exp (clip700 (-c * t)) + Real.exp (clip700 (2 * c * t))) ≤
      (w 1 1 + w 2 1 + w 3 1) * Real.log (1 + 1 + 1)) hpos
  have p1 := Real.exp_pos (clip700 (-c * t))
  have p2 := Real.exp_pos (clip700 (2 * c * t))
  have hle := (Real.log_le_log_iff (by positivity) (by norm_num)).1 hlog
  have q1 := Real.add_one_le_exp (clip700 (-c * t))
  have q2 := Real.add_one_le_exp (clip700 (2 * c * t))
  have c1 : clip700 (-c * t) < 1 := by linarith
  have c2 : clip700 (2 * c * t) < 1 := by linarith
  have d : ∀ u, clip700 u < 1 → u < 1 := fun u hu => by
    unfold clip700 at hu
    by_contra hn
    have : (1 : ℝ) ≤ max (-700) (min u 700) := le_max_of_le_right (le_min (not_lt.1 hn) (by norm_num))
    linarith
  have e1 := d _ c1
  have e2 := d _ c2
  have hval : (exNine c).val "x" r * t = 0 ∨ (exNine c).val "x" r * t = -(c * t) ∨ (exNine c).val "x" r * t = 2 * (c * t) := by
    fin_cases r <;> simp [exNine, mul_assoc]
  rcases hval with h | h | h <;> rw [h, abs_lt] <;> constructor <;> nlinarith

/-- The column is identified by any observation. -/
theorem exNine_identified {c : ℝ} (hc : c ≠ 0) {look : ℝ → Prop} (hl : look 1 ∨ look 2 ∨ look 3) :
    IdentifiedOn (exNine c) "obs" "alt" exCols look := by
  intro v hv
  have h : ∀ r s : Fin 9, (exNine c).val "obs" r = (exNine c).val "obs" s → look ((exNine c).val "obs" r) →
      (exNine c).val "x" r * v ⟨0, by simp [exCols_length]⟩ = (exNine c).val "x" s * v ⟨0, by simp [exCols_length]⟩ :=
    fun r s h1 h2 => by
      have := hv r s h1 h2
      rwa [exNine_index, exNine_index] at this
  have h0 : v ⟨0, by simp [exCols_length]⟩ = 0 := by
    rcases hl with hl | hl | hl
    · have := h 0 1 (by simp [exNine]) (by simpa [exNine] using hl)
      simpa [exNine, hc] using this
    · have := h 4 3 (by simp [exNine]) (by simpa [exNine] using hl)
      simpa [exNine, hc] using this
    · have := h 8 6 (by simp [exNine]) (by simpa [exNine] using hl)
      simpa [exNine, hc] using this
  funext i
  obtain ⟨i, hi⟩ := i
  obtain rfl : i = 0 := by have := exCols_length; omega
  exact h0

/-- The model of the table. -/
theorem exNine_built (env : Env ℝ) (henv : env.badCol = fun _ => false) (c : ℝ) :
    ∃ m, createChoiceModel env "MNL" (exNine c) exLogitArgs = .ok m ∧ m.cls = .mnl ∧ m.data = exNine c ∧
      m.args = exLogitArgs ∧ m.indVarNames.length = 1 := by
  obtain ⟨m, h1, h2, h3, h4⟩ := LR.exBuilt env henv (ty := "MNL") (cls := .mnl) (by decide) (by decide) (L := exNine c) rfl
    (exNine_ids c).1 [("x", .allSame)] (by simp [exNine]) (by simp [SpecVal.ValidFor])
    (by simp [specColumns, SpecVal.columns]) (A := exLogitArgs) (iref := .none) (sref := .none) rfl rfl (fun _ => rfl) (by simp)
  refine ⟨m, h1, h2, h3, h4, ?_⟩
  have hd := (built_own h1).1.design
  obtain ⟨cls, nm, dt, ds, ns, ar, ms⟩ := m
  dsimp only at h3 h4 hd ⊢
  subst h3 h4
  have hs := design_success env.fmt env.fmtList (exNine c) [("x", .allSame)] "alt" [1, 2, 3] (exNine_ids c).1 (by simp [exNine])
    (by simp [exNine]) (by simp [SpecVal.ValidFor]) (by simp [SpecVal.columns])
  have := congrArg Prod.snd (Except.ok.inj (hs.symm.trans hd))
  dsimp only at this
  rw [← this]
  simp [SpecVal.columns]

/-- A bootstrap of the model. -/
theorem exNine_bootstrap {env : Env ℝ} {c : ℝ} {m : ChoiceModel ℝ}
    (hm : createChoiceModel env "MNL" (exNine c) exLogitArgs = .ok m) (hcls : m.cls = .mnl) (hdat : m.data = exNine c)
    (hargs : m.args = exLogitArgs) (hlen : m.indVarNames.length = 1)
    (extract : ChoiceModel ℝ → List (PyVal ℝ) → List ℝ → ℕ → Except Err (List ℝ)) (st : countingRng.State) :
    ∃ reps st', bootstrapRun countingRng env exGlobal extract m exCols.length ⟨none, none, none, none⟩ ⟨exGlobal, none, none⟩ 2
        (some (.int 5)) st = .ok (reps, st') ∧ NeverClipped m.data m.args.altIdCol exCols reps ∧
      ∀ samples t, samplesRng countingRng (m.data.val m.args.obsIdCol) (m.data.val m.args.altIdCol)
        (m.data.val m.args.choiceCol) 2 (some (.int 5)) st = .ok (samples, t) → ∀ sample ∈ samples,
          1 ∈ sample ∨ 2 ∈ sample ∨ 3 ∈ sample := by
  obtain ⟨cls, nm, dt, ds, ns, ar, ms⟩ := m
  dsimp only at hcls hdat hargs hlen ⊢
  subst hcls hdat hargs
  obtain ⟨chosen, hc⟩ := exNine_chosen c
  have hcols : exCols.length = exCols.length := rfl
  have hb : "bootstrap_id" ∉ (exNine c).columns := by simp [exNine]
  obtain ⟨⟨reps, st'⟩, hres⟩ := mnl_bootstrap_succeeds hm rfl (s := [("x", .allSame)]) rfl (exNine_ids c).1 hc (by
      intro b hb
      simp only [List.mem_cons, List.not_mem_nil, or_false] at hb
      rcases hb with rfl | rfl | rfl
      · exact ⟨(0 : Fin 9), rfl, rfl⟩
      · exact ⟨(4 : Fin 9), rfl, rfl⟩
      · exact ⟨(8 : Fin 9), rfl, rfl⟩) hb (n := exCols.length) rfl (hlen.trans exCols_length.symm)
    countingRng_chooses (bfgs := exGlobal) extract (mnl := ⟨none, none, none, none⟩) ⟨exGlobal, none, none⟩ (by simp)
    (.inr ⟨by simp, exGlobal_finds⟩) (by simp) 2 (seed := some (.int 5)) st (Or.inr ⟨5, (5 : ℕ), rfl, by simp [countingRng]⟩)
  have hU := mnl_documented (m := ⟨.mnl, nm, exNine c, ds, ns, exLogitArgs, ms⟩) rfl (alts := [1, 2, 3]) (cols := exCols) rfl
  obtain ⟨h0, samples, h1, h2, h3⟩ := bootstrap_replicates_maximise hm (by simp) (s := [("x", .allSame)]) rfl []
    (exNine_ids c).1 (by simp) hc hb hU countingRng_chooses (fun _ => by simp) (fun h => absurd rfl h) hres
  have hmem : ∀ i (hi : i < samples.length), 1 ∈ samples[i] ∨ 2 ∈ samples[i] ∨ 3 ∈ samples[i] := by
    intro i hi
    obtain ⟨⟨f1, f2, -⟩, -⟩ := h3 i hi (by rw [h0, ← h2]; exact hi)
    have hne : samples[i] ≠ [] := by
      intro e
      rw [e, List.length_nil] at f1
      have : (exNine c).val "obs" (0 : Fin 9) ∈ univ.image ((exNine c).val "obs") :=
        Finset.mem_image_of_mem _ (Finset.mem_univ _)
      exact absurd f1.symm (Finset.card_ne_zero_of_mem this)
    obtain ⟨o, ho⟩ := List.exists_mem_of_ne_nil _ hne
    obtain ⟨r, hr⟩ := f2 o ho
    have : o ∈ ([1, 2, 3] : List ℝ) := ((exNine_ids c).2.2 o).2 ⟨r, hr⟩
    simp only [List.mem_cons, List.not_mem_nil, or_false] at this
    rcases this with rfl | rfl | rfl
    · exact .inl ho
    · exact .inr (.inl ho)
    · exact .inr (.inr ho)
  refine ⟨reps, st', hres, ?_, ?_⟩
  · intro x hx r
    obtain ⟨i, hi, rfl⟩ := List.getElem_of_mem hx
    have his : i < samples.length := by rw [h2, ← h0]; exact hi
    obtain ⟨-, x₀, x, e, -, -, hmax⟩ := h3 i his hi
    rw [e]
    have hp : 0 < (samples[i].count 1 : ℝ) * 1 + (samples[i].count 2 : ℝ) * 1 + (samples[i].count 3 : ℝ) * 1 := by
      rcases hmem i his with h | h | h <;> have := List.count_pos_iff.2 h <;> positivity
    exact exNine_best (c := c) (w := fun o y => (samples[i].count o : ℝ) * y) (by simp) hp
      (sample_best (hmax exGlobal_minimising.2) 0) r
  · intro smp t h sample hs
    cases h1.symm.trans h
    obtain ⟨i, hi, rfl⟩ := List.getElem_of_mem hs
    exact hmem i hi

/-- The jackknife of the model. -/
theorem exNine_jackknife {env : Env ℝ} {c : ℝ} {m : ChoiceModel ℝ}
    (hm : createChoiceModel env "MNL" (exNine c) exLogitArgs = .ok m) (hcls : m.cls = .mnl) (hdat : m.data = exNine c)
    (hargs : m.args = exLogitArgs) (hlen : m.indVarNames.length = 1)
    (extract : ChoiceModel ℝ → List (PyVal ℝ) → List ℝ → ℕ → Except Err (List ℝ)) :
    ∃ reps, generateJackknifeReplicates env (pointFitter exGlobal) extract m exCols.length ⟨none, none, none, none⟩
        ⟨exGlobal, none, none⟩ = .ok reps ∧ NeverClipped m.data m.args.altIdCol exCols reps := by
  obtain ⟨cls, nm, dt, ds, ns, ar, ms⟩ := m
  dsimp only at hcls hdat hargs hlen ⊢
  subst hcls hdat hargs
  obtain ⟨chosen, hc⟩ := exNine_chosen c
  obtain ⟨reps, hres⟩ := mnl_jackknife_succeeds hm rfl (s := [("x", .allSame)]) rfl (exNine_ids c).1 (by simp [exNine])
    (by simp [exNine, exLogitArgs, Frame.colList]; norm_num) (by
      intro b hb
      simp only [List.mem_cons, List.not_mem_nil, or_false] at hb
      rcases hb with rfl | rfl | rfl
      · exact ⟨(0 : Fin 9), (3 : Fin 9), by simp [exNine, exLogitArgs]⟩
      · exact ⟨(1 : Fin 9), (4 : Fin 9), by simp [exNine, exLogitArgs]⟩
      · exact ⟨(2 : Fin 9), (5 : Fin 9), by simp [exNine, exLogitArgs]⟩) (n := exCols.length) rfl
    (hlen.trans exCols_length.symm) (bfgs := exGlobal) extract (mnl := ⟨none, none, none, none⟩) ⟨exGlobal, none, none⟩ (by simp)
    (.inr ⟨by simp, exGlobal_finds, choices_nonneg hc⟩) (by simp)
  have hU := mnl_documented (m := ⟨.mnl, nm, exNine c, ds, ns, exLogitArgs, ms⟩) rfl (alts := [1, 2, 3]) (cols := exCols) rfl
  obtain ⟨h0, h3⟩ := jackknife_replicates_maximise hm (by simp) (s := [("x", .allSame)]) rfl
    (exNine_ids c).1 (by simp) (exNine_ids c).2 hc hU (fun _ => by simp) (fun h => absurd rfl h) hres
  refine ⟨reps, hres, ?_⟩
  intro x hx r
  obtain ⟨i, hi, rfl⟩ := List.getElem_of_mem hx
  have his : i < ([1, 2, 3] : List ℝ).length := by rw [← h0]; exact hi
  obtain ⟨x₀, x, e, -, -, hmax⟩ := h3 i his hi
  rw [e]
  have b := without_best (hmax exGlobal_minimising.2)
  generalize ([1, 2, 3] : List ℝ)[i] = o at b
  refine exNine_best (c := c) (w := fun o' y => if o' = o then 0 else y) (by simp) ?_ (b 0) r
  by_cases h1 : (1 : ℝ) = o
  · subst h1; norm_num
  · by_cases h2 : (2 : ℝ) = o
    · subst h2; norm_num
    · simp only [h1, h2, if_false]
      split_ifs <;> norm_num

/-- A fit of the model. -/
theorem exNine_fit {env : Env ℝ} {c : ℝ} (h0 : c ≠ 0) {m : ChoiceModel ℝ}
    (hm : createChoiceModel env "MNL" (exNine c) exLogitArgs = .ok m) (hcls : m.cls = .mnl) (hdat : m.data = exNine c)
    (hargs : m.args = exLogitArgs) (label : PyVal ℝ → String) (sf : ℝ → ℝ) :
    ∃ k t, HoldsResultsOf label sf m
        (mnlFitCall exGlobal m ⟨⟨some (List.replicate k 0), none, none, none⟩, none, none, false⟩) t ∧
      UnclippedFit m.data m.args.altIdCol exCols t := by
  obtain ⟨cls, nm, dt, ds, ns, ar, ms⟩ := m
  dsimp only at hcls hdat hargs ⊢
  subst hcls hdat hargs
  obtain ⟨k, t, ht⟩ := LR.exIdentified hm rfl (s := [("x", .allSame)]) rfl (by simp) rfl rfl (exNine_ids c).1 (exNine_chosen c)
    (by simp [exNine, exLogitArgs, Frame.colList]; norm_num) (by simp [exNine])
    (fun v hv => exNine_identified h0 (look := fun _ => True) (by simp) v fun r s h _ => hv r s h) label sf
  rw [LR.mnl_logit rfl rfl (by simp [exNine])] at ht
  refine ⟨k, t, ht, ?_⟩
  obtain ⟨chosen, hc⟩ := exNine_chosen c
  obtain ⟨before, after, hst, hafter, rfl⟩ := ht
  obtain ⟨n, x, labels, H, F, hn, -, -, hrep, hmax, -⟩ :=
    mnl_fit_report hm rfl (s := [("x", .allSame)]) rfl (exNine_ids c).1 (exNine_ids c).2 hc exGlobal_minimising.1 label sf before after
      _ rfl hst hafter
  subst hn
  intro L y hy r
  rw [hrep.statistics.params] at hy
  cases hy
  exact exNine_best (c := c) (w := fun _ y => y) (by simp) (by norm_num) (fit_best (hmax exGlobal_minimising.2) 0) r

/-- Both in other units, of either sign: all conditions are met by runs that succeed. -/
example (env : Env ℝ) (henv : env.badCol = fun _ => false) (label : PyVal ℝ → String) (sf : ℝ → ℝ)
    (st : countingRng.State) {c : ℝ} (hc : c ≠ 0) :
    ∃ m m' : ChoiceModel ℝ, createChoiceModel env "MNL" (exNine 1) exLogitArgs = .ok m ∧
      createChoiceModel env "MNL" (exNine c) exLogitArgs = .ok m' ∧
      (∃ reps reps' st' : _, bootstrapRun countingRng env exGlobal (defaultExtract label) m exCols.length ⟨none, none, none, none⟩
          ⟨exGlobal, none, none⟩ 2 (some (.int 5)) st = .ok (reps, st') ∧
        bootstrapRun countingRng env exGlobal (defaultExtract label) m' exCols.length ⟨none, none, none, none⟩
          ⟨exGlobal, none, none⟩ 2 (some (.int 5)) st = .ok (reps', st') ∧
        columnOf reps' 0 = (columnOf reps 0).map fun x => c⁻¹ * x) ∧
      (∃ reps reps', generateJackknifeReplicates env (pointFitter exGlobal) (defaultExtract label) m exCols.length
          ⟨none, none, none, none⟩ ⟨exGlobal, none, none⟩ = .ok reps ∧
        generateJackknifeReplicates env (pointFitter exGlobal) (defaultExtract label) m' exCols.length
          ⟨none, none, none, none⟩ ⟨exGlobal, none, none⟩ = .ok reps' ∧
        columnOf reps' 0 = (columnOf reps 0).map fun x => c⁻¹ * x) ∧
      ∃ t t' : FitAttrs, t.params.isSome ∧ SameFitInUnits (fun _ : Fin exCols.length => c) t t' := by
  obtain ⟨m, a1, a2, a3, a4, a5⟩ := exNine_built env henv 1
  obtain ⟨m', b1, b2, b3, b4, b5⟩ := exNine_built env henv c
  have b1' := b1
  rw [← exNine_units c] at b1'
  have hk := exUnits_only hc
  have ha : AltsOf m.data m.args.altIdCol [1, 2, 3] := by rw [a3, a4]; exact (exNine_ids 1).1
  have hids : AltsOf m.data m.args.obsIdCol [1, 2, 3] := by rw [a3, a4]; exact (exNine_ids 1).2
  obtain ⟨chosen, hch⟩ : ∃ chosen, OneChoicePerObs m.data m.args.obsIdCol m.args.choiceCol chosen := by
    rw [a3, a4]; exact exNine_chosen 1
  have hspec : m.args.specification = encodeAll [("x", .allSame)] := by rw [a4]; rfl
  have hone : exUnits c exCols[(⟨0, by simp [exCols_length]⟩ : Fin exCols.length)].ofVariable = c := by
    simp [exCols, specColumns, SpecVal.columns, ColDesc.ofVariable, exUnits]
  have hidn : ∀ {look : ℝ → Prop}, (look 1 ∨ look 2 ∨ look 3) →
      IdentifiedOn m.data m.args.obsIdCol m.args.altIdCol exCols look := fun h => by
    rw [a3, a4]; exact exNine_identified one_ne_zero h
  refine ⟨m, m', a1, b1, ?_, ?_, ?_⟩
  · obtain ⟨reps, st₁, h1, h2, h3⟩ := exNine_bootstrap a1 a2 a3 a4 a5 (defaultExtract label) st
    obtain ⟨reps', st₂, h1', h2', -⟩ := exNine_bootstrap b1 b2 b3 b4 b5 (defaultExtract label) st
    obtain ⟨rfl, -, h⟩ := bootstrap_units hk a1 b1' a2 hspec ha hch (by rw [a3]; simp [exNine]) countingRng_chooses (bfgs := exGlobal)
      (bfgs' := exGlobal) (mnl := ⟨none, none, none, none⟩) (mnl' := ⟨none, none, none, none⟩) rfl
      (by simp) (by simp) rfl rfl exGlobal_minimising.2 exGlobal_minimising.2 h1 h1'
      (fun smp t e sample hs => hidn (h3 smp t e sample hs)) h2 h2'
    have := h ⟨0, by simp [exCols_length]⟩
    rw [hone] at this
    exact ⟨reps, reps', _, h1, h1', this⟩
  · obtain ⟨reps, h1, h2⟩ := exNine_jackknife a1 a2 a3 a4 a5 (defaultExtract label)
    obtain ⟨reps', h1', h2'⟩ := exNine_jackknife b1 b2 b3 b4 b5 (defaultExtract label)
    obtain ⟨-, h⟩ := jackknife_units hk a1 b1' a2 hspec ha hids hch (bfgs := exGlobal)
      (bfgs' := exGlobal) (mnl := ⟨none, none, none, none⟩) (mnl' := ⟨none, none, none, none⟩) rfl
      (by simp) (by simp) rfl rfl exGlobal_minimising.2 exGlobal_minimising.2 h1 h1'
      (fun o _ => hidn (by
        by_cases h1 : (1 : ℝ) = o
        · subst h1; norm_num
        · exact .inl h1)) h2 h2'
    have := h ⟨0, by simp [exCols_length]⟩
    rw [hone] at this
    exact ⟨reps, reps', h1, h1', this⟩
  · obtain ⟨k, t, h1, h2⟩ := exNine_fit one_ne_zero a1 a2 a3 a4 label sf
    obtain ⟨k', t', h1', h2'⟩ := exNine_fit hc b1 b2 b3 b4 label sf
    have h := fit_units hk a1 b1' a2 hspec (by simp) (by rw [a4]; simp [exLogitArgs]) ha hids hch exGlobal_minimising.1
      exGlobal_minimising.1 exGlobal_minimising.2 exGlobal_minimising.2 label sf rfl rfl rfl rfl rfl rfl h1 h1' h2 h2'
    refine ⟨t, t', ?_, ?_⟩
    · obtain ⟨L, x, x', e, -⟩ := h.params
      rw [e]; rfl
    · convert h using 2 with j
      obtain ⟨j, hj⟩ := j
      obtain rfl : j = 0 := by have := exCols_length; omega
      exact hone.symm

end Units

end

end Pylogit
