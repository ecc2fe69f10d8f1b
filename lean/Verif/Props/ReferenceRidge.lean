import Verif.Props.ReferenceCases

/-!
# C132: with a ridge penalty and three alternatives, the reference alternative matters
-/

namespace Pylogit

open Spec

noncomputable section

namespace Reference

/-- One observation of three alternatives without attributes, of which the first was chosen. -/
def exFirst : Frame ℝ where
  columns := ["obs", "alt", "x", "y"]
  numRows := 3
  val := fun c => if c = "alt" then ![1, 2, 3] else if c = "x" then ![0, 0, 0] else if c = "y" then ![1, 0, 0]
    else ![1, 1, 1]

theorem exFirst_facts : AltsOf exFirst "alt" [1, 2, 3] ∧ OneChoicePerObs exFirst "obs" "y" (fun _ => (0 : Fin 3)) ∧
    (exFirst.colList "obs").Pairwise (· ≤ ·) := by
  refine ⟨⟨by norm_num, fun x => ⟨?_, ?_⟩⟩, ⟨?_, ?_, ?_⟩, by simp [exFirst, Frame.colList]⟩
  · intro hx
    simp only [List.mem_cons, List.not_mem_nil, or_false] at hx
    rcases hx with rfl | rfl | rfl
    · exact ⟨(0 : Fin 3), rfl⟩
    · exact ⟨(1 : Fin 3), rfl⟩
    · exact ⟨(2 : Fin 3), rfl⟩
  · rintro ⟨r, rfl⟩
    change Fin 3 at r
    fin_cases r <;> simp [exFirst]
  · intro r; change Fin 3 at r; fin_cases r <;> simp [exFirst]
  · intro r; change Fin 3 at r; fin_cases r <;> simp [exFirst]
  · intro r; change Fin 3 at r; fin_cases r <;> simp [exFirst]

theorem three_ll (u : Fin 3 → ℝ) :
    ∑ r : Fin 3, (![1, 0, 0] : Fin 3 → ℝ) r * Real.log (clippedLogit (![1, 1, 1] : Fin 3 → ℝ) u r) =
    Real.log (Real.exp (clip700 (u 0)) / (Real.exp (clip700 (u 0)) + Real.exp (clip700 (u 1)) + Real.exp (clip700 (u 2)))) := by
  rw [Fin.sum_univ_three]
  simp only [clippedLogit, logitProb, rowsOf, Finset.sum_filter, Fin.sum_univ_three]
  simp

/-- The log-likelihood of the choice, for intercepts `q`. -/
def exFirstLL (q : ℝ → ℝ) : ℝ := Real.log (Real.exp (q 1) / (Real.exp (q 1) + Real.exp (q 2) + Real.exp (q 3)))

theorem exFirst_ll {q : ℝ → ℝ} (hq : ∀ a ∈ [(1 : ℝ), 2, 3], |q a| < 700) :
    LR.ll exFirst "obs" "y" (fun r => q (exFirst.val "alt" r)) = exFirstLL q := by
  have hf : exFirst.val "obs" = ![1, 1, 1] := by simp [exFirst]
  have hy : exFirst.val "y" = ![1, 0, 0] := by simp [exFirst]
  have ha : exFirst.val "alt" = ![1, 2, 3] := by simp [exFirst]
  unfold LR.ll
  rw [hf, hy, ha]
  refine (three_ll fun r => q ((![1, 2, 3] : Fin 3 → ℝ) r)).trans ?_
  simp only [Matrix.cons_val_zero, Matrix.cons_val_one, Matrix.cons_val]
  rw [clip_id (hq 1 (by simp)), clip_id (hq 2 (by simp)), clip_id (hq 3 (by simp))]
  rfl

theorem exFirst_index (β : List ℝ) (r : Fin exFirst.numRows) :
    callersIndex exFirst "alt" (specColumns [1, 2, 3] [("x", .allSame)]) β r = 0 := by
  refine List.sum_eq_zero fun v hv => ?_
  obtain ⟨c, hc, rfl⟩ := List.mem_map.1 hv
  have hcx : c.1 = .same "x" := List.mem_singleton.1 (List.of_mem_zip hc).1
  have h0 : exFirst.val "x" r = 0 := by
    have : exFirst.val "x" = ![0, 0, 0] := by simp [exFirst]
    rw [this]
    have h : ∀ r : Fin 3, (![0, 0, 0] : Fin 3 → ℝ) r = 0 := by
      intro r
      fin_cases r <;> rfl
    exact h r
  simp only [hcx, ColDesc.value]
  rw [if_neg (by simp), h0, zero_mul]

theorem uneven_zero (alts : List ℝ) (q : AltParams) (a : ℝ) : rowUtility .uneven alts q a 0 = q.icpt a := by
  simp [rowUtility]

/-- What a penalised fit of the uneven model reports, for the reference alternative at position `z`. -/
theorem exFirst_fit (env : Env ℝ) (henv : env.badCol = fun _ => false) (label : PyVal ℝ → String) (sf : ℝ → ℝ) (z : ℕ)
    (hz : z < 3) :
    ∃ m k t L, createChoiceModel env "Uneven" exFirst { exLogitArgs with interceptRefPos := .int z } = .ok m ∧
      HoldsResultsOf label sf m
        (logitFitCall exGlobal m ⟨⟨some (List.replicate k 0), none, none, none⟩, some 1, none, false⟩) t ∧ t.llf = some L ∧
      (∀ q : ℝ → ℝ, q ([1, 2, 3][z]) = 0 → (∀ a ∈ [(1 : ℝ), 2, 3], |q a| < 700) →
        exFirstLL q - ((([1, 2, 3].eraseIdx z).map q).map (· ^ 2)).sum ≤ L) ∧
      ∃ q : ℝ → ℝ, q ([1, 2, 3][z]) = 0 ∧ (∀ a ∈ [(1 : ℝ), 2, 3], |q a| < 3) ∧
        L ≤ exFirstLL q - ((([1, 2, 3].eraseIdx z).map q).map (· ^ 2)).sum := by
  obtain ⟨ha, hc, hasc⟩ := exFirst_facts
  obtain ⟨g1, g2⟩ := exGlobal_minimising
  obtain ⟨m, hm, e1, e2, e3⟩ := LR.exBuilt env henv (ty := "Uneven") (cls := .uneven) (by decide) (by simp)
    (L := exFirst) rfl ha [("x", .allSame)] (by simp [exFirst]) (by simp [SpecVal.ValidFor])
    (by simp [specColumns, SpecVal.columns])
    (A := { exLogitArgs with interceptRefPos := .int z }) (iref := .int z) (sref := .none) rfl
    rfl (by simp) (by simp)
  obtain ⟨k, t, ht⟩ := LR.exHolds hm (by simp [e1])
    (s := [("x", .allSame)]) (by rw [e3]; rfl)
    (by simp) (by rw [e3]; rfl) (by rw [e2, e3]; exact ha) (by simp)
    (by rw [e2, e3]; exact ⟨_, hc⟩) (by rw [e2, e3]; exact hasc) (by rw [e2]; simp [exFirst])
    (by rw [e3]; exact fun _ => .inr ⟨z, rfl, by simp, by simpa using hz⟩) (by simp [e1]) label sf
  obtain ⟨-, n, x, U, L, hU, hL, -, h3, -, h4, hmax⟩ := LR.extract (s := [("x", .allSame)]) hm rfl ha (by simp) hc g1 rfl ht
  have hL1 : L = LR.ll exFirst "obs" "y" (U x) - 1 * ∑ k, x k ^ 2 := hL
  have hU : LR.Doc .uneven [1, 2, 3] (.int z) .none exFirst "alt" (specColumns [1, 2, 3] [("x", .allSame)]) U := by
    rw [e1, e3] at hU; exact hU
  have hmax : ∀ y, LR.ll exFirst "obs" "y" (U y) - 1 * ∑ k, y k ^ 2 ≤ L := fun y => hmax g2 y
  have low : ∀ q : ℝ → ℝ, q ([1, 2, 3][z]) = 0 → (∀ a ∈ [(1 : ℝ), 2, 3], |q a| < 700) →
      exFirstLL q - ((([1, 2, 3].eraseIdx z).map q).map (· ^ 2)).sum ≤ L := by
    intro q hq0 hq
    obtain ⟨y, y1, y2⟩ := LR.realise (p := ⟨[0], some (([1, 2, 3].eraseIdx z).map q), some [0, 0, 0], none⟩)
      (q := ⟨q, fun _ => 0⟩) (by simp) (fun r => (ha.mem _).2 ⟨r, rfl⟩) hU
      ⟨by simp, fun v hv => by cases hv; exact ⟨z, hz, rfl, rfl, hq0⟩, fun _ => by simp, by simp⟩ (by simp) (by simp) rfl
    have h := hmax y
    have hu : U y = fun r => q (exFirst.val "alt" r) := by
      funext r
      rw [y2 r, exFirst_index, uneven_zero]
    rw [hu, exFirst_ll hq, LR.ofFn_sq, y1] at h
    simpa using h
  refine ⟨m, k, t, L, hm, ht, h3, low, ?_⟩
  obtain ⟨p, q, c1, c2, c3, c4, c5, c6⟩ := hU x
  obtain ⟨v, hv⟩ : ∃ v, p.intercepts = some v := by
    cases e : p.intercepts with
    | none => simpa using c3.1 e
    | some v => exact ⟨v, rfl⟩
  obtain ⟨w, hw, hwz, rfl, hq0⟩ := c1.icpt v hv
  obtain rfl : w = z := by
    injection hwz with e
    exact_mod_cast e.symm
  have hsq : (((([1, 2, 3].eraseIdx w).map q.icpt).map (· ^ 2)).sum : ℝ) ≤ ∑ k, x k ^ 2 := by
    rw [LR.ofFn_sq, c5, hv]
    simp only [List.map_append, List.sum_append, Option.getD_some]
    have h1 : ∀ l : List ℝ, 0 ≤ (l.map (· ^ 2)).sum := fun l => List.sum_nonneg fun v hv => by
      obtain ⟨u, -, rfl⟩ := List.mem_map.1 hv
      exact sq_nonneg u
    linarith [h1 (p.shapes.getD []), h1 p.index]
  have hbound : ∑ k, x k ^ 2 ≤ 2 := by
    have h := low (fun _ => 0) rfl (by simp)
    have h5 : exFirstLL (fun _ => 0) = -Real.log 3 := by
      simp only [exFirstLL, Real.exp_zero]
      rw [one_div, Real.log_inv]
      norm_num
    have h6 : ((([1, 2, 3].eraseIdx w).map fun _ : ℝ => (0 : ℝ)).map (· ^ 2)).sum = 0 := by
      simp
    rw [h5, h6] at h
    have h7 := Real.log_le_sub_one_of_pos (show (0 : ℝ) < 3 by norm_num)
    have h8 := LR.ll_nonpos hc (U x)
    linarith
  have hall : ∀ a ∈ [(1 : ℝ), 2, 3], |q.icpt a| < 3 := by
    intro a hmem
    obtain ⟨i, hi, rfl⟩ := List.getElem_of_mem hmem
    by_cases e : i = w
    · subst e
      rw [hq0]
      simp
    · have h1 : [(1 : ℝ), 2, 3][i] ∈ [(1 : ℝ), 2, 3].eraseIdx w := List.mem_eraseIdx_iff_getElem.2 ⟨i, hi, e, rfl⟩
      have h2 : q.icpt [(1 : ℝ), 2, 3][i] ^ 2 ≤ ((([1, 2, 3].eraseIdx w).map q.icpt).map (· ^ 2)).sum := by
        refine List.single_le_sum (fun v hv => ?_) _ (List.mem_map.2 ⟨_, List.mem_map.2 ⟨_, h1, rfl⟩, rfl⟩)
        obtain ⟨u, -, rfl⟩ := List.mem_map.1 hv
        exact sq_nonneg u
      refine abs_lt_of_sq_lt_sq (by linarith) (by norm_num)
  refine ⟨q.icpt, hq0, hall, ?_⟩
  have hu : U x = fun r => q.icpt (exFirst.val "alt" r) := by
    funext r
    rw [c6 r, exFirst_index, uneven_zero]
  rw [hL1, hu, exFirst_ll fun a h => lt_trans (hall a h) (by norm_num)]
  linarith

theorem exFirstLL_eq (q : ℝ → ℝ) : exFirstLL q = -Real.log (1 + Real.exp (q 2 - q 1) + Real.exp (q 3 - q 1)) := by
  have h := Real.exp_pos (q 1)
  unfold exFirstLL
  rw [← Real.log_inv, Real.exp_sub, Real.exp_sub]
  congr 1
  field_simp

end Reference

open Reference in
/-- **C132** needs the condition on the ridge penalty: of two fits of one table of three alternatives with ridge
penalty 1, by an optimiser that finds global maxima, that differ only in the alternative without an outside intercept,
one reports a lower log-likelihood than the other. -/
theorem reference_alternative_matters_with_ridge (env : Env ℝ) (henv : env.badCol = fun _ => false)
    (label : PyVal ℝ → String) (sf : ℝ → ℝ) :
    ∃ m m' k k' t t' L L',
      let f := fun m k => logitFitCall exGlobal m ⟨⟨some (List.replicate k 0), none, none, none⟩, some 1, none, false⟩
      createChoiceModel env "Uneven" exFirst { exLogitArgs with interceptRefPos := .int 0 } = .ok m ∧
      createChoiceModel env "Uneven" exFirst { exLogitArgs with interceptRefPos := .int 1 } = .ok m' ∧
      HoldsResultsOf label sf m (f m k) t ∧ HoldsResultsOf label sf m' (f m' k') t' ∧
      t.llf = some L ∧ t'.llf = some L' ∧ L < L' := by
  obtain ⟨m, k, t, L, hm, ht, hL, low, q, hq0, hq, up⟩ := exFirst_fit env henv label sf 0 (by norm_num)
  obtain ⟨m', k', t', L', hm', ht', hL', low', -⟩ := exFirst_fit env henv label sf 1 (by norm_num)
  refine ⟨m, m', k, k', t, t', L, L', by simpa using hm, by simpa using hm', ht, ht', hL, hL', ?_⟩
  have hq1 : q 1 = 0 := hq0
  obtain ⟨b1, b2⟩ := abs_lt.1 (hq 2 (by simp))
  obtain ⟨b3, b4⟩ := abs_lt.1 (hq 3 (by simp))
  set c := (q 2 + q 3) / 2 with hc
  have h1 := low (fun a => if a = 1 then 0 else -(1 / 10)) (by simp) (by
    intro a _
    split_ifs <;> norm_num)
  have h2 := low' (fun a => if a = 1 then -c else 0) (by simp) (by
    intro a _
    split_ifs
    · rw [abs_neg, abs_lt]; constructor <;> linarith
    · norm_num)
  rw [exFirstLL_eq] at up h1 h2
  norm_num [hq1] at up h1 h2
  have e1 : 2 * Real.exp c ≤ Real.exp (q 2) + Real.exp (q 3) := by
    have e2 : Real.exp (q 2) = Real.exp (q 2 / 2) ^ 2 := by rw [sq, ← Real.exp_add]; congr 1; ring
    have e3 : Real.exp (q 3) = Real.exp (q 3 / 2) ^ 2 := by rw [sq, ← Real.exp_add]; congr 1; ring
    have e4 : Real.exp c = Real.exp (q 2 / 2) * Real.exp (q 3 / 2) := by rw [← Real.exp_add]; congr 1; rw [hc]; ring
    rw [e2, e3, e4]
    nlinarith [sq_nonneg (Real.exp (q 2 / 2) - Real.exp (q 3 / 2))]
  have hec := Real.exp_pos c
  have e5 : Real.log (1 + Real.exp c + Real.exp c) ≤ Real.log (1 + Real.exp (q 2) + Real.exp (q 3)) :=
    Real.log_le_log (by positivity) (by linarith)
  have e6 : 2 * c ^ 2 ≤ q 2 ^ 2 + q 3 ^ 2 := by rw [hc]; nlinarith [sq_nonneg (q 2 - q 3)]
  rcases eq_or_ne c 0 with e | e
  · exfalso
    rw [e, Real.exp_zero] at e5
    have h7 : Real.log (1 + Real.exp (-(1 / 10)) + Real.exp (-(1 / 10))) + 1 / 50 < Real.log (1 + 1 + 1) := by
      have h8 : Real.exp (-(1 / 10 : ℝ)) ≤ 10 / 11 := by
        rw [Real.exp_neg, inv_le_comm₀ (Real.exp_pos _) (by norm_num)]
        have := Real.add_one_le_exp (1 / 10 : ℝ)
        linarith
      have h9 : Real.log (1 + Real.exp (-(1 / 10)) + Real.exp (-(1 / 10))) ≤ Real.log (31 / 11) :=
        Real.log_le_log (by positivity) (by linarith)
      have h10 := Real.one_sub_inv_le_log_of_pos (show (0 : ℝ) < 33 / 31 by norm_num)
      have h11 : Real.log (1 + 1 + 1) = Real.log (31 / 11) + Real.log (33 / 31) := by
        rw [← Real.log_mul (by norm_num) (by norm_num)]
        norm_num
      norm_num at h10
      rw [h11]
      linarith
    have s2 := sq_nonneg (q 2)
    have s3 := sq_nonneg (q 3)
    generalize Real.log (1 + Real.exp (-(1 / 10)) + Real.exp (-(1 / 10))) = A at h1 h7
    generalize Real.log (1 + 1 + 1) = B at h7 e5
    linarith
  · have : 0 < c ^ 2 := by positivity
    linarith

end

end Pylogit
