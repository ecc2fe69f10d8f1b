import Verif.Lemmas.Choice

/-!
# C16-C20: choice probabilities of the logit-type models

`calcProbabilities` is the model of `calc_probabilities`.  The transformation `T` is arbitrary,
so every statement covers the MNL, Clog-log, Scobit, Uneven and Asymmetric models at once.
-/

set_option linter.unusedSectionVars false

open Finset Matrix

namespace Pylogit

open Spec

variable {R O A K S I D ι : Type} [Fintype R] [Fintype O] [Fintype K] [DecidableEq O]

/-- The calls inside the likelihood functions succeed and return `modelProbs`. -/
theorem calcProbabilities_long_1d (β : K → ℝ) (X : Matrix R K ℝ) (alt : R → ι)
    (M : Matrix R O ℝ) (rta : Matrix R A ℝ) (T : Transform R A S I ι)
    (icpt : Option (I → ℝ)) (shape : Option (S → ℝ)) :
    calcProbabilities (D := Unit) (.vec β) (.two X) alt M rta T icpt shape none true =
      .ok (.long fun r _ => modelProbs β X alt M rta T icpt shape r) := rfl

/-- Auxiliary: the long part of any successful call. -/
theorem longPart_of_ok {β : Coefs K D} {X : DesignArg R K D} {alt : R → ι} {M : Matrix R O ℝ}
    {rta : Matrix R A ℝ} {T : Transform R A S I ι} {icpt : Option (I → ℝ)}
    {shape : Option (S → ℝ)} {C : Option (Matrix R O ℝ)} {b : Bool} {res : ProbResult R O D}
    {lp : R → D → ℝ}
    (hres : calcProbabilities β X alt M rta T icpt shape C b = .ok res)
    (hlp : longPart res = some lp) :
    ∃ v, sysUtilities X β = .ok v ∧
      ∀ r d, lp r d = longProbs M (T (fun r => v r d) alt rta shape icpt) r := by
  unfold calcProbabilities at hres
  rcases β with β | β <;> rcases X with X | X <;> rcases C with _ | C <;> rcases b with _ | _ <;>
    simp [sysUtilities, bind, Except.bind] at hres <;> subst hres <;>
    simp [longPart] at hlp <;> subst hlp <;> exact ⟨_, rfl, fun _ _ => rfl⟩

/-- **C16**. Every long probability returned by `calc_probabilities` lies in (0, 1], and over the
rows of any observation that has a row they sum to one. -/
theorem probabilities_valid {β : Coefs K D} {X : DesignArg R K D} {alt : R → ι} {M : Matrix R O ℝ}
    {rta : Matrix R A ℝ} {T : Transform R A S I ι} {icpt : Option (I → ℝ)}
    {shape : Option (S → ℝ)} {C : Option (Matrix R O ℝ)} {b : Bool} {res : ProbResult R O D}
    {lp : R → D → ℝ} {f : R → O} (hM : Indicates M f)
    (hres : calcProbabilities β X alt M rta T icpt shape C b = .ok res)
    (hlp : longPart res = some lp) :
    (∀ r d, 0 < lp r d ∧ lp r d ≤ 1) ∧
      ∀ o d, (∃ r, f r = o) → ∑ r ∈ rowsOf f o, lp r d = 1 := by
  obtain ⟨v, -, hv⟩ := longPart_of_ok hres hlp
  refine ⟨fun r d => ?_, ?_⟩
  · rw [hv]; exact ⟨longProbs_pos hM _ _, longProbs_le_one hM _ _⟩
  · rintro o d ⟨r, rfl⟩
    simp only [hv]
    exact longProbs_sum hM _ r

/-- **C17** (formula). When no transformed utility of the observation of row `r` exceeds 700 in
absolute value, the probability of row `r` is the textbook logit probability. -/
theorem probabilities_formula {β : Coefs K D} {X : DesignArg R K D} {alt : R → ι}
    {M : Matrix R O ℝ} {rta : Matrix R A ℝ} {T : Transform R A S I ι} {icpt : Option (I → ℝ)}
    {shape : Option (S → ℝ)} {C : Option (Matrix R O ℝ)} {b : Bool} {res : ProbResult R O D}
    {lp : R → D → ℝ} {f : R → O} (hM : Indicates M f)
    (hres : calcProbabilities β X alt M rta T icpt shape C b = .ok res)
    (hlp : longPart res = some lp) :
    ∃ v, sysUtilities X β = .ok v ∧ ∀ r d,
      (∀ s, f s = f r → |T (fun r => v r d) alt rta shape icpt s| ≤ 700) →
      lp r d = logitProb f (T (fun r => v r d) alt rta shape icpt) r := by
  obtain ⟨v, h1, hv⟩ := longPart_of_ok hres hlp
  exact ⟨v, h1, fun r d hh => by rw [hv, longProbs_eq_logitProb hM r hh]⟩

/-- **C17** (the MNL-style 1D call, spelled out): with identity transform the probability of a row
is `exp (x_r · β)` over the sum of `exp (x_s · β)` over the rows of the same observation. -/
theorem mnl_probabilities_formula (β : K → ℝ) (X : Matrix R K ℝ) (alt : R → ι)
    (M : Matrix R O ℝ) (rta : Matrix R A ℝ) {f : R → O} (hM : Indicates M f)
    (hh : ∀ r, |(X *ᵥ β) r| ≤ 700) (r : R) :
    modelProbs (S := S) (I := I) β X alt M rta (fun v _ _ _ _ => v) none none r =
      Real.exp (∑ k, X r k * β k) /
        ∑ s ∈ rowsOf f (f r), Real.exp (∑ k, X s k * β k) :=
  longProbs_eq_logitProb hM r fun s _ => hh s

/-- **C17** (own choice set only). If two calls agree on the transformed utilities of all rows of
the observation of `r`, they give row `r` the same probability. -/
theorem probabilities_own_choice_set {M : Matrix R O ℝ} {f : R → O} (hM : Indicates M f)
    {h h' : R → ℝ} {r : R} (hh : ∀ s, f s = f r → h s = h' s) :
    longProbs M h r = longProbs M h' r := by
  rw [longProbs_eq hM, longProbs_eq hM]
  have e : ∀ s, f s = f r → longExponentials h s = longExponentials h' s := fun s hs => by
    simp [longExponentials, hh s hs]
  rw [e r rfl]
  congr 1
  exact Finset.sum_congr rfl fun s hs => e s (mem_rowsOf.1 hs)

/-- **C17** (own choice set only, for the MNL call). Changing design rows that belong to other
observations does not change the probability of row `r`. -/
theorem mnl_probabilities_own_choice_set (β : K → ℝ) (X X' : Matrix R K ℝ) (alt : R → ι)
    (M : Matrix R O ℝ) (rta : Matrix R A ℝ) {f : R → O} (hM : Indicates M f) (r : R)
    (hX : ∀ s, f s = f r → X s = X' s) :
    modelProbs (S := S) (I := I) β X alt M rta (fun v _ _ _ _ => v) none none r =
      modelProbs (S := S) (I := I) β X' alt M rta (fun v _ _ _ _ => v) none none r :=
  probabilities_own_choice_set hM fun s hs => by simp [mulVec, hX s hs]

/-- **C17** (shift invariance). Adding a constant to the utilities of one observation changes none
of its probabilities as long as nothing is clipped before or after. -/
theorem probabilities_shift {M : Matrix R O ℝ} {f : R → O} (hM : Indicates M f)
    {h h' : R → ℝ} {r : R} {c : ℝ} (hs : ∀ s, f s = f r → h' s = h s + c)
    (h1 : ∀ s, f s = f r → |h s| ≤ 700) (h2 : ∀ s, f s = f r → |h' s| ≤ 700) :
    longProbs M h' r = longProbs M h r := by
  rw [longProbs_eq_logitProb hM r h1, longProbs_eq_logitProb hM r h2, logitProb, logitProb]
  have : ∑ s ∈ rowsOf f (f r), Real.exp (h' s) =
      (∑ s ∈ rowsOf f (f r), Real.exp (h s)) * Real.exp c := by
    rw [Finset.sum_mul]
    refine Finset.sum_congr rfl fun s hs' => ?_
    rw [hs s (mem_rowsOf.1 hs'), Real.exp_add]
  rw [this, hs r rfl, Real.exp_add, mul_div_mul_right _ _ (Real.exp_pos c).ne']

/-- **C18** (order). Within an observation a larger transformed utility never gets a smaller
probability, clipped or not. -/
theorem probabilities_monotone {M : Matrix R O ℝ} {f : R → O} (hM : Indicates M f)
    {h : R → ℝ} {r s : R} (hrs : f r = f s) (hle : h r ≤ h s) :
    longProbs M h r ≤ longProbs M h s := by
  rw [longProbs_eq hM, longProbs_eq hM, hrs]
  exact div_le_div_of_nonneg_right (Real.exp_le_exp.2 (clip_mono hle)) (denom_pos f h s).le

/-- **C18** (strict order where not clipped). Within an observation, of two different transformed
utilities that are both within ±700 the larger gets the strictly larger probability. -/
theorem probabilities_strictMono {M : Matrix R O ℝ} {f : R → O} (hM : Indicates M f)
    {h : R → ℝ} {r s : R} (hrs : f r = f s) (hlt : h r < h s) (h1 : |h r| ≤ 700)
    (h2 : |h s| ≤ 700) : longProbs M h r < longProbs M h s := by
  rw [longProbs_eq hM, longProbs_eq hM, hrs]
  refine div_lt_div_of_pos_right ?_ (denom_pos f h s)
  simpa [longExponentials, clip_eq h1, clip_eq h2] using hlt

/-- **C18** (clipping). Two rows of one observation whose transformed utilities are both at least
700 get the same probability, however different they are; likewise below -700. -/
theorem probabilities_clipped_equal {M : Matrix R O ℝ} {f : R → O} (hM : Indicates M f)
    {h : R → ℝ} {r s : R} (hrs : f r = f s)
    (hb : (700 ≤ h r ∧ 700 ≤ h s) ∨ (h r ≤ -700 ∧ h s ≤ -700)) :
    longProbs M h r = longProbs M h s := by
  rw [longProbs_eq hM, longProbs_eq hM, hrs]
  have e : clipExponent (h r) = clipExponent (h s) := by
    unfold clipExponent maxExponentVal minExponentVal
    rcases hb with ⟨h1, h2⟩ | ⟨h1, h2⟩ <;> split_ifs <;> linarith
  simp only [longExponentials, e]

/-- **C18** (witness). Shift invariance fails beyond the clipping bound: one observation with
utilities (0, 701); lowering both by 1 changes the probabilities. -/
theorem probabilities_shift_fails_when_clipped :
    ∃ (M : Matrix (Fin 2) Unit ℝ) (h : Fin 2 → ℝ), Indicates M (fun _ => ()) ∧
      longProbs M (fun r => h r - 1) 0 ≠ longProbs M h 0 := by
  have hM : Indicates (fun (_ : Fin 2) (_ : Unit) => (1 : ℝ)) (fun _ => ()) := by
    intro r o; simp
  refine ⟨fun _ _ => 1, ![0, 701], hM, ?_⟩
  rw [longProbs_eq hM, longProbs_eq hM]
  have hu : rowsOf (fun _ : Fin 2 => ()) () = Finset.univ := by
    ext; simp
  simp only [hu, Fin.sum_univ_two, longExponentials]
  have c1 : clipExponent ((![0, 701] : Fin 2 → ℝ) 0 - 1) = -1 := by
    norm_num [clipExponent, maxExponentVal, minExponentVal]
  have c2 : clipExponent ((![0, 701] : Fin 2 → ℝ) 1 - 1) = 700 := by
    norm_num [clipExponent, maxExponentVal, minExponentVal]
  have c3 : clipExponent ((![0, 701] : Fin 2 → ℝ) 0) = 0 := by
    norm_num [clipExponent, maxExponentVal, minExponentVal]
  have c4 : clipExponent ((![0, 701] : Fin 2 → ℝ) 1) = 700 := by
    norm_num [clipExponent, maxExponentVal, minExponentVal]
  rw [c1, c2, c3, c4]
  intro h
  have p0 := Real.exp_pos 0
  have p1 := Real.exp_pos (-1)
  have p7 := Real.exp_pos 700
  rw [div_eq_div_iff (by positivity) (by positivity)] at h
  have : Real.exp (-1) = Real.exp 0 := by
    have h3 : Real.exp (-1) * Real.exp 700 = Real.exp 0 * Real.exp 700 := by linarith
    exact mul_right_cancel₀ p7.ne' h3
  exact absurd (Real.exp_injective this) (by norm_num)

/-- **C19**. When both kinds are requested (with `chosen_row_to_obs` built from the choice column
as `create_long_form_mappings` does), the chosen probability of an observation is the long
probability of its chosen row. -/
theorem chosen_probability_is_long_probability {β : Coefs K D} {X : DesignArg R K D} {alt : R → ι}
    {M C : Matrix R O ℝ} {rta : Matrix R A ℝ} {T : Transform R A S I ι} {icpt : Option (I → ℝ)}
    {shape : Option (S → ℝ)} {cp : O → D → ℝ} {lp : R → D → ℝ} {f : R → O}
    {choice : R → ℝ} {c : O → R} (hM : Indicates M f) (hc : OneChoice f choice c)
    (hC : ∀ r o, C r o = M r o * choice r)
    (hres : calcProbabilities β X alt M rta T icpt shape (some C) true = .ok (.both cp lp)) :
    ∀ o d, cp o d = lp (c o) d := by
  unfold calcProbabilities at hres
  rcases β with β | β <;> rcases X with X | X <;>
    simp [sysUtilities, bind, Except.bind] at hres <;> obtain ⟨rfl, rfl⟩ := hres <;>
    intro o d <;> exact chosenProbs_eq hM hc hC _ o

/-- **C19**. The chosen-only call returns the same numbers as the call that returns both. -/
theorem chosen_only_agrees {β : Coefs K D} {X : DesignArg R K D} {alt : R → ι}
    {M C : Matrix R O ℝ} {rta : Matrix R A ℝ} {T : Transform R A S I ι} {icpt : Option (I → ℝ)}
    {shape : Option (S → ℝ)} {cp : O → D → ℝ} {lp : R → D → ℝ}
    (hres : calcProbabilities β X alt M rta T icpt shape (some C) true = .ok (.both cp lp)) :
    calcProbabilities β X alt M rta T icpt shape (some C) false = .ok (.chosen cp) ∧
    calcProbabilities β X alt M rta T icpt shape none true = .ok (.long lp) := by
  unfold calcProbabilities at *
  rcases β with β | β <;> rcases X with X | X <;>
    simp [sysUtilities, bind, Except.bind] at hres ⊢ <;> exact hres

/-- Is the argument pair a 3D design together with 2D coefficients? -/
def Spec.threeDTwoD : DesignArg R K D → Coefs K D → Prop
  | .three _, .mat _ => True
  | _, _ => False

/-- **C20**. `calc_probabilities` raises exactly for a 3D design with 2D coefficients, or when
neither kind of probability is requested, and then it raises `ValueError`; otherwise it returns
the chosen part iff `chosen_row_to_obs` was given and the long part iff requested. -/
theorem calcProbabilities_contract (β : Coefs K D) (X : DesignArg R K D) (alt : R → ι)
    (M : Matrix R O ℝ) (rta : Matrix R A ℝ) (T : Transform R A S I ι) (icpt : Option (I → ℝ))
    (shape : Option (S → ℝ)) (C : Option (Matrix R O ℝ)) (b : Bool) :
    ((threeDTwoD X β ∨ (C = none ∧ b = false)) →
      calcProbabilities β X alt M rta T icpt shape C b = .error .valueError) ∧
    (¬ (threeDTwoD X β ∨ (C = none ∧ b = false)) →
      ∃ res, calcProbabilities β X alt M rta T icpt shape C b = .ok res ∧
        ((longPart res).isSome ↔ b = true) ∧ ((chosenPart res).isSome ↔ C ≠ none)) := by
  rcases β with β | β <;> rcases X with X | X <;> rcases C with _ | C <;> rcases b with _ | _ <;>
    simp [calcProbabilities, sysUtilities, threeDTwoD, bind, Except.bind, longPart, chosenPart]

/-! ## Non-vacuity: three rows, two observations (two alternatives and one alternative) -/

/-- Observation of each row in the running example. -/
def exObs : Fin 3 → Fin 2 := ![0, 0, 1]

/-- Membership matrix of the running example. -/
def exM : Matrix (Fin 3) (Fin 2) ℝ := fun r o => if exObs r = o then 1 else 0

theorem exM_indicates : Indicates exM exObs := fun _ _ => rfl

/-- Choices of the running example: rows 1 and 2. -/
def exChoice : Fin 3 → ℝ := ![0, 1, 1]

theorem exOneChoice : OneChoice exObs exChoice ![1, 2] where
  mem := by decide
  one := by intro o; fin_cases o <;> rfl
  zero := by intro r; fin_cases r <;> simp [exObs, exChoice]

/-- The hypotheses of `probabilities_valid`, `probabilities_formula` and
`chosen_probability_is_long_probability` are met by the running example. -/
example : ∃ cp lp, calcProbabilities (K := Fin 1) (D := Unit) (A := Fin 2) (S := Empty) (I := Empty)
    (.vec ![2]) (.two !![1; 2; 3]) (fun _ => (0 : ℤ)) exM 0 (fun v _ _ _ _ => v) none none
    (some fun r o => exM r o * exChoice r) true = .ok (.both cp lp) := ⟨_, _, rfl⟩

example : ∀ r, |((!![1; 2; 3] : Matrix (Fin 3) (Fin 1) ℝ) *ᵥ ![2]) r| ≤ 700 := by
  intro r; fin_cases r <;> simp [mulVec, dotProduct] <;> norm_num

/-- Shift hypotheses are satisfiable. -/
example : longProbs exM (fun r => ![1, 2, 3] r + 5) 0 = longProbs exM ![1, 2, 3] 0 :=
  probabilities_shift exM_indicates (c := 5) (fun _ _ => rfl)
    (by intro s _; fin_cases s <;> norm_num [abs_le])
    (by intro s _; fin_cases s <;> norm_num [abs_le])

end Pylogit
