import Verif.Lemmas.Transforms
import Verif.Spec.Derivs
import Mathlib.Analysis.Complex.ExponentialBounds

/-!
# C31-C35: utility transformations

`rta` is the `rows_to_alts` matrix, indicating the alternative `alt r` of each row.
-/

set_option linter.unusedSectionVars false

open Finset Matrix Function

namespace Pylogit

open Spec

variable {R K ι : Type} [Fintype R] [DecidableEq R] [Fintype K] {n : ℕ}

/-! ## Auxiliary facts -/

theorem jacobian_of_rowwise {F : (R → ℝ) → R → ℝ} {g : R → ℝ → ℝ} {g' : R → ℝ} {v : R → ℝ}
    (hF : ∀ v r, F v r = g r (v r)) (hg : ∀ r, HasDerivAt (g r) (g' r) (v r)) :
    HasJacobian F (Matrix.diagonal g') v := by
  intro r q
  simp only [hF]
  by_cases h : r = q
  · subst h; simpa using hg r
  · simpa [h] using hasDerivAt_const (v q) (g r (v r))

theorem jacobian_alpha {G : R → ℝ} (ref : Fin (n + 1)) {rta : Matrix R (Fin (n + 1)) ℝ}
    {alt : R → Fin (n + 1)} (hA : Indicates rta alt) (a : Fin n → ℝ) :
    HasJacobian (fun a r => G r + (rta *ᵥ allIntercepts (some ref) (some a)) r)
      (dhDAlpha ref rta) a := by
  intro r i
  simp only [mulVec_indicates hA, allIntercepts, dhDAlpha]
  refine HasDerivAt.const_add _ ?_
  rcases Fin.eq_self_or_eq_succAbove ref (alt r) with h | ⟨m, h⟩
  · have : ¬ alt r = ref.succAbove i := by rw [h]; exact (Fin.succAbove_ne ref i).symm
    simp only [hA r _]
    rw [if_neg this, h]
    simpa using hasDerivAt_const (a i) (0 : ℝ)
  · simp only [h, Fin.insertNth_apply_succAbove, hA r _]
    by_cases hm : m = i
    · subst hm
      simpa using hasDerivAt_id' (a m)
    · rw [if_neg (fun h => hm (Fin.succAbove_right_injective h))]
      simpa [hm] using hasDerivAt_const (a i) (a m)

theorem jacobian_shape_exp {g g' : ℝ → ℝ → ℝ} {G : R → ℝ} {rta : Matrix R (Fin (n + 1)) ℝ}
    {alt : R → Fin (n + 1)} (hA : Indicates rta alt) (v : R → ℝ) (s : Fin (n + 1) → ℝ)
    (hg : ∀ v s, HasDerivAt (fun s => g (Real.exp s) v) (g' (Real.exp s) v) s) :
    HasJacobian (fun s r => G r + g ((rta *ᵥ fun j => Real.exp (s j)) r) (v r))
      (scaleRows rta fun r => g' ((rta *ᵥ fun j => Real.exp (s j)) r) (v r)) s := by
  intro r j
  simp only [mulVec_indicates hA, scaleRows, hA r j]
  refine HasDerivAt.const_add _ ?_
  by_cases h : alt r = j
  · subst h
    simpa using hg (v r) (s (alt r))
  · simpa [h] using hasDerivAt_const (s j) (g (Real.exp (s (alt r))) (v r))

/-! ## C31, C32: the derivative matrices handed to the gradient are correct -/

/-- **C31/C32, MNL**. -/
theorem mnl_derivs_correct {A : Type} (v : R → ℝ) (ids : R → ι) (rta : Matrix R A ℝ) :
    DerivsCorrect mnlTransform mnlDerivs v ids rta none none where
  dv := by
    have := jacobian_of_rowwise (F := fun v => v) (g := fun _ x => x) (g' := fun _ => 1) (v := v)
      (fun _ _ => rfl) (fun r => hasDerivAt_id' (v r))
    simpa [mnlDerivs, mnlTransform] using this
  dc := by simp
  da := by simp

/-- **C31/C32, Scobit**: all three derivative matrices are correct at every utility, every shape
vector and with or without outside intercepts. -/
theorem scobit_derivs_correct (ref : Fin (n + 1)) {rta : Matrix R (Fin (n + 1)) ℝ}
    {alt : R → Fin (n + 1)} (hA : Indicates rta alt) (v : R → ℝ) (ids : R → ι)
    (s : Fin (n + 1) → ℝ) (icpt : Option (Fin n → ℝ)) :
    DerivsCorrect (scobitTransform (some ref)) (scobitDerivs ref rta s v) v ids rta (some s) icpt where
  dv := jacobian_of_rowwise
    (g := fun r x => (rta *ᵥ allIntercepts (some ref) icpt) r +
      scobitH ((rta *ᵥ fun j => Real.exp (s j)) r) x)
    (fun _ _ => rfl)
    (fun r => (scobit_hasDerivAt (by rw [mulVec_indicates hA]; exact Real.exp_pos _) _).const_add _)
  dc := by
    rintro s' hs
    obtain rfl := Option.some.inj hs
    exact jacobian_shape_exp hA v _ scobit_shape_hasDerivAt
  da := by
    rintro a -
    have := jacobian_alpha (G := fun r => scobitH ((rta *ᵥ fun j => Real.exp (s j)) r) (v r))
      ref hA a
    have e : (fun a : Fin n → ℝ => scobitTransform (some ref) v ids rta (some s) (some a)) =
        fun a r => scobitH ((rta *ᵥ fun j => Real.exp (s j)) r) (v r) +
          (rta *ᵥ allIntercepts (some ref) (some a)) r := by
      funext a r; exact add_comm _ _
    rw [e]; exact this

/-- **C31/C32, Uneven**. -/
theorem uneven_derivs_correct (ref : Fin (n + 1)) {rta : Matrix R (Fin (n + 1)) ℝ}
    {alt : R → Fin (n + 1)} (hA : Indicates rta alt) (v : R → ℝ) (ids : R → ι)
    (s : Fin (n + 1) → ℝ) (icpt : Option (Fin n → ℝ)) :
    DerivsCorrect (unevenTransform (some ref)) (unevenDerivs ref rta s v) v ids rta (some s) icpt where
  dv := jacobian_of_rowwise
    (g := fun r x => unevenH ((rta *ᵥ fun j => Real.exp (s j)) r) x +
      (rta *ᵥ allIntercepts (some ref) icpt) r)
    (fun _ _ => rfl) (fun r => (uneven_hasDerivAt _ _).add_const _)
  dc := by
    rintro s' hs
    obtain rfl := Option.some.inj hs
    have := jacobian_shape_exp (G := fun r => (rta *ᵥ allIntercepts (some ref) icpt) r)
      hA v s uneven_shape_hasDerivAt
    have e : (fun s : Fin (n + 1) → ℝ => unevenTransform (some ref) v ids rta (some s) icpt) =
        fun s r => (rta *ᵥ allIntercepts (some ref) icpt) r +
          unevenH ((rta *ᵥ fun j => Real.exp (s j)) r) (v r) := by
      funext a r; exact add_comm _ _
    rw [e]; exact this
  da := by
    rintro a -
    exact jacobian_alpha ref hA a

/-- **C31/C32, Clog-log** (partial): the derivative matrices are correct when every utility is below
3.7.  At and above 3.7 see `clog_deriv_wrong_above` and `clog_deriv_error_small`. -/
theorem clog_derivs_correct_partial (ref : Fin (n + 1)) {rta : Matrix R (Fin (n + 1)) ℝ}
    {alt : R → Fin (n + 1)} (hA : Indicates rta alt) (v : R → ℝ) (hv : ∀ r, v r < 3.7)
    (ids : R → ι) (icpt : Option (Fin n → ℝ)) :
    DerivsCorrect (clogTransform (some ref)) (clogDerivs ref rta v) v ids rta none icpt where
  dv := jacobian_of_rowwise
    (g := fun r x => clogH x + (rta *ᵥ allIntercepts (some ref) icpt) r)
    (fun _ _ => rfl) (fun r => (clog_hasDerivAt (hv r)).add_const _)
  dc := by simp
  da := by
    rintro a -
    exact jacobian_alpha ref hA a

/-- **C31, Clog-log** (negation above the switch point): for every utility above 3.7 the supplied
derivative differs from the true derivative of the transformation, which is `exp v`. -/
theorem clog_deriv_wrong_above {v : ℝ} (hv : 3.7 < v) :
    HasDerivAt clogH (Real.exp v) v ∧ Real.exp v < clogDerivV v := by
  refine ⟨clog_hasDerivAt_high hv, ?_⟩
  rw [clogDerivV_eq]
  have h1 : Real.exp (-Real.exp v) < 1 := by
    rw [Real.exp_lt_one_iff]; linarith [Real.exp_pos v]
  have h2 := Real.exp_pos (-Real.exp v)
  have h3 := Real.exp_pos v
  rw [lt_div_iff₀ (by linarith)]
  nlinarith

/-- `exp 3.7 > 40`. -/
theorem exp_37_gt : (40 : ℝ) < Real.exp 3.7 := by
  have h1 : Real.exp 3.7 ^ 10 = Real.exp 1 ^ 37 := by
    rw [← Real.exp_nat_mul, ← Real.exp_nat_mul]; norm_num
  have h2 : (2.718 : ℝ) ^ 37 ≤ Real.exp 1 ^ 37 :=
    pow_le_pow_left₀ (by norm_num) (by linarith [Real.exp_one_gt_d9]) 37
  have h3 : (40 : ℝ) ^ 10 < 2.718 ^ 37 := by norm_num
  exact lt_of_pow_lt_pow_left₀ 10 (Real.exp_pos _).le (by linarith)

/-- **C31, Clog-log** (size of the error): above the switch point the supplied derivative exceeds
the true one by a relative error below 1e-17, and the transformation itself is off from
`log(exp(exp v) - 1)` by less than 1e-17. -/
theorem clog_deriv_error_small {v : ℝ} (hv : 3.7 ≤ v) :
    clogDerivV v ≤ Real.exp v * (1 + 1e-17) ∧
      0 < clogH v - Real.log (Real.exp (Real.exp v) - 1) ∧
      clogH v - Real.log (Real.exp (Real.exp v) - 1) < 1e-17 := by
  have hv40 : (40 : ℝ) < Real.exp v := lt_of_lt_of_le exp_37_gt (Real.exp_le_exp.2 hv)
  have h40 : Real.exp (-Real.exp v) < 9e-18 := by
    have a : Real.exp (-Real.exp v) < Real.exp (-40) := Real.exp_lt_exp.2 (by linarith)
    have b : Real.exp (-40) = (Real.exp 1 ^ 40)⁻¹ := by
      rw [← Real.exp_nat_mul, ← Real.exp_neg]; norm_num
    have c : (2.718 : ℝ) ^ 40 ≤ Real.exp 1 ^ 40 :=
      pow_le_pow_left₀ (by norm_num) (by linarith [Real.exp_one_gt_d9]) 40
    have d : (Real.exp 1 ^ 40)⁻¹ ≤ ((2.718 : ℝ) ^ 40)⁻¹ := inv_anti₀ (by positivity) c
    have e : ((2.718 : ℝ) ^ 40)⁻¹ < 9e-18 := by norm_num
    linarith
  have hp := Real.exp_pos (-Real.exp v)
  have hev := Real.exp_pos v
  refine ⟨?_, ?_, ?_⟩
  · rw [clogDerivV_eq, div_le_iff₀ (by linarith)]
    nlinarith
  · rw [clogH_high hv]; linarith [clog_low_lt v]
  · rw [clogH_high hv]
    have e : Real.exp (Real.exp v) - 1 =
        Real.exp (Real.exp v) * (1 - Real.exp (-Real.exp v)) := by
      rw [mul_sub, mul_one, ← Real.exp_add]; simp
    rw [e, Real.log_mul (Real.exp_pos _).ne' (by linarith), Real.log_exp]
    have l : 1 - (1 - Real.exp (-Real.exp v))⁻¹ ≤ Real.log (1 - Real.exp (-Real.exp v)) :=
      Real.one_sub_inv_le_log_of_pos (by linarith)
    have : (1 - Real.exp (-Real.exp v))⁻¹ < 1 + 1e-17 := by
      rw [inv_lt_comm₀ (by linarith) (by norm_num)]
      have : ((1 : ℝ) + 1e-17)⁻¹ < 1 - 9e-18 := by norm_num
      linarith
    linarith

/-- **C32, Clog-log**: the intercept derivatives are correct at every utility. -/
theorem clog_intercept_jacobian (ref : Fin (n + 1)) {rta : Matrix R (Fin (n + 1)) ℝ}
    {alt : R → Fin (n + 1)} (hA : Indicates rta alt) (v : R → ℝ) (ids : R → ι) (a : Fin n → ℝ) :
    HasJacobian (fun a => clogTransform (S := Empty) (some ref) v ids rta none (some a))
      (clogDerivs ref rta v).dhdalpha a :=
  jacobian_alpha ref hA a

/-- **C32, Asymmetric**: the intercept derivatives are correct at every utility. -/
theorem asym_intercept_jacobian (sref ref : Fin (n + 1))
    {rta : Matrix R (Fin (n + 1)) ℝ} {alt : R → Fin (n + 1)} (hA : Indicates rta alt) (v : R → ℝ)
    (ids : R → ι) (eta : Fin n → ℝ) (a : Fin n → ℝ) :
    HasJacobian (fun a => asymTransform sref (some ref) v ids rta (some eta) (some a))
      (asymDerivs sref ref rta eta v).dhdalpha a :=
  jacobian_alpha ref hA a

/-- **C32, Asymmetric**: the shape derivatives are correct at every utility (also at zero). -/
theorem asym_shape_jacobian (hn : 0 < n) (sref ref : Fin (n + 1))
    {rta : Matrix R (Fin (n + 1)) ℝ} {alt : R → Fin (n + 1)} (hA : Indicates rta alt) (v : R → ℝ)
    (ids : R → ι) (eta : Fin n → ℝ) (icpt : Option (Fin n → ℝ)) :
    HasJacobian (fun eta => asymTransform sref (some ref) v ids rta (some eta) icpt)
      (asymDerivs sref ref rta eta v).dhdc eta := by
  intro r i
  simp only [asymTransform, asymDerivs, mulVec_indicates hA]
  refine HasDerivAt.add_const _ ?_
  have h1 := asymC_hasDerivAt (J := n + 1) (by omega) (convertEtaToC_pos sref eta (alt r))
    (convertEtaToC_lt_one sref eta hn (alt r)) (v r)
  have h2 := convertEtaToC_hasDerivAt sref eta (alt r) i
  have h3 := HasDerivAt.comp (h₂ := fun c => asymH (n + 1) c (v r)) (eta i)
    (by simpa using h1) h2
  refine HasDerivAt.congr_deriv h3 ?_
  rw [Matrix.mul_apply, Finset.sum_eq_single (alt r)]
  · simp [scaleRows, hA r _]
  · intro j _ hj; simp [scaleRows, hA r _, hj.symm]
  · simp

/-- **C31, Asymmetric** (partial): the derivative matrices are correct when no utility is exactly
zero (or the natural shape of its alternative is `1/J`, e.g. at zero shape parameters).  At a zero
utility see `asym_not_differentiable_at_zero`. -/
theorem asym_derivs_correct_partial (hn : 0 < n) (sref ref : Fin (n + 1))
    {rta : Matrix R (Fin (n + 1)) ℝ} {alt : R → Fin (n + 1)} (hA : Indicates rta alt) (v : R → ℝ)
    (ids : R → ι) (eta : Fin n → ℝ) (icpt : Option (Fin n → ℝ))
    (hv : ∀ r, v r ≠ 0 ∨ convertEtaToC sref eta (alt r) = 1 / ((n + 1 : ℕ) : ℝ)) :
    DerivsCorrect (asymTransform sref (some ref)) (asymDerivs sref ref rta eta v) v ids rta
      (some eta) icpt where
  dv := jacobian_of_rowwise
    (g := fun r x => asymH (n + 1) ((rta *ᵥ convertEtaToC sref eta) r) x +
      (rta *ᵥ allIntercepts (some ref) icpt) r)
    (fun _ _ => rfl)
    (fun r => by
      rw [mulVec_indicates hA]
      exact (asym_hasDerivAt (by omega) (convertEtaToC_pos _ _ _)
        (convertEtaToC_lt_one _ _ hn _) (hv r)).add_const _)
  dc := by
    rintro s' hs
    obtain rfl := Option.some.inj hs
    exact asym_shape_jacobian hn sref ref hA v ids _ icpt
  da := by
    rintro a -
    exact asym_intercept_jacobian sref ref hA v ids eta a

/-- **C31, Asymmetric** (negation at zero): with three alternatives and natural shape 1/2, the
transformation is not differentiable at utility 0. -/
theorem asym_not_differentiable_at_zero :
    ¬ ∃ d, HasDerivAt (asymH 3 (1 / 2)) d 0 := by
  rintro ⟨d, hd⟩
  have hr : HasDerivWithinAt (asymH 3 (1 / 2)) (-Real.log (1 / 2)) (Set.Ici 0) 0 := by
    have l : HasDerivAt (fun u : ℝ => Real.log (1 / 2) - u * Real.log (1 / 2))
        (-Real.log (1 / 2)) 0 := by
      simpa using ((hasDerivAt_id (0 : ℝ)).mul_const (Real.log (1 / 2))).const_sub (Real.log (1 / 2))
    refine l.hasDerivWithinAt.congr (fun u hu => ?_) ?_
    · rw [asymH_eq (by norm_num) (by norm_num) (by norm_num), if_pos (Set.mem_Ici.1 hu)]
    · rw [asymH_eq (by norm_num) (by norm_num) (by norm_num), if_pos le_rfl]
  have hl : HasDerivWithinAt (asymH 3 (1 / 2)) (-Real.log (1 / 4)) (Set.Iic 0) 0 := by
    have l : HasDerivAt (fun u : ℝ => Real.log (1 / 2) - u * Real.log (1 / 4))
        (-Real.log (1 / 4)) 0 := by
      simpa using ((hasDerivAt_id (0 : ℝ)).mul_const (Real.log (1 / 4))).const_sub (Real.log (1 / 2))
    refine l.hasDerivWithinAt.congr (fun u hu => ?_) ?_
    · rw [asymH_eq (by norm_num) (by norm_num) (by norm_num)]
      rcases eq_or_lt_of_le (Set.mem_Iic.1 hu) with h | h
      · subst h; simp
      · rw [if_neg (by linarith)]; norm_num
    · rw [asymH_eq (by norm_num) (by norm_num) (by norm_num)]; simp
  have e1 := (uniqueDiffWithinAt_Ici (0 : ℝ)).eq_deriv _ hd.hasDerivWithinAt hr
  have e2 := (uniqueDiffWithinAt_Iic (0 : ℝ)).eq_deriv _ hd.hasDerivWithinAt hl
  have e3 : Real.log (1 / 2) = Real.log (1 / 4) := by linarith
  have := Real.log_injOn_pos (Set.mem_Ioi.2 (by norm_num)) (Set.mem_Ioi.2 (by norm_num)) e3
  norm_num at this

/-! ## C33: monotonicity -/

/-- The transformed utility of every row is strictly increasing in the row's systematic utility. -/
def Spec.IncreasingInOwnUtility {A S I : Type} (T : Transform R A S I ι) (ids : R → ι)
    (rta : Matrix R A ℝ) (shape : Option (S → ℝ)) (icpt : Option (I → ℝ)) : Prop :=
  ∀ v v' r, v r < v' r → T v ids rta shape icpt r < T v' ids rta shape icpt r

/-- **C33**, MNL. -/
theorem mnl_increasing {A S I : Type} (ids : R → ι) (rta : Matrix R A ℝ) :
    IncreasingInOwnUtility (S := S) (I := I) mnlTransform ids rta none none := fun _ _ _ h => h

/-- **C33**, Scobit. -/
theorem scobit_increasing (ref : Option (Fin (n + 1))) {rta : Matrix R (Fin (n + 1)) ℝ}
    {alt : R → Fin (n + 1)} (hA : Indicates rta alt) (ids : R → ι) (s : Fin (n + 1) → ℝ)
    (icpt : Option (Fin n → ℝ)) :
    IncreasingInOwnUtility (scobitTransform ref) ids rta (some s) icpt := by
  intro v v' r h
  simp only [scobitTransform, mulVec_indicates hA]
  have := scobit_strictMono (Real.exp_pos (s (alt r))) h
  linarith

/-- **C33**, Uneven. -/
theorem uneven_increasing (ref : Option (Fin (n + 1))) {rta : Matrix R (Fin (n + 1)) ℝ}
    {alt : R → Fin (n + 1)} (hA : Indicates rta alt) (ids : R → ι) (s : Fin (n + 1) → ℝ)
    (icpt : Option (Fin n → ℝ)) :
    IncreasingInOwnUtility (unevenTransform ref) ids rta (some s) icpt := by
  intro v v' r h
  simp only [unevenTransform, mulVec_indicates hA]
  have := uneven_strictMono (Real.exp_pos (s (alt r))) h
  linarith

/-- **C33**, Clog-log (also across the switch at 3.7). -/
theorem clog_increasing {S : Type} (ref : Option (Fin (n + 1))) (rta : Matrix R (Fin (n + 1)) ℝ)
    (ids : R → ι) (icpt : Option (Fin n → ℝ)) :
    IncreasingInOwnUtility (S := S) (clogTransform ref) ids rta none icpt := by
  intro v v' r h
  simp only [clogTransform]
  have := clog_strictMono h
  linarith

/-- **C33**, Asymmetric (two or more alternatives). -/
theorem asym_increasing (hn : 0 < n) (sref : Fin (n + 1)) (ref : Option (Fin (n + 1)))
    {rta : Matrix R (Fin (n + 1)) ℝ} {alt : R → Fin (n + 1)} (hA : Indicates rta alt)
    (ids : R → ι) (eta : Fin n → ℝ) (icpt : Option (Fin n → ℝ)) :
    IncreasingInOwnUtility (asymTransform sref ref) ids rta (some eta) icpt := by
  intro v v' r h
  simp only [asymTransform, mulVec_indicates hA]
  have := asym_strictMono (J := n + 1) (by omega) (convertEtaToC_pos sref eta (alt r))
    (convertEtaToC_lt_one sref eta hn (alt r)) h
  linarith

/-- **C33**, consequence for probabilities: raising the transformed utility of one row (within ±700),
leaving the others, strictly raises its probability if the observation has another row. -/
theorem probability_increases {O : Type} [Fintype O] [DecidableEq O] {M : Matrix R O ℝ} {f : R → O}
    (hM : Indicates M f) {h h' : R → ℝ} {r q : R} (hq : q ≠ r) (hfq : f q = f r)
    (hlt : h r < h' r) (hsame : ∀ s, s ≠ r → h' s = h s) (h1 : -700 ≤ h r) (h2 : h' r ≤ 700) :
    longProbs M h r < longProbs M h' r := by
  rw [longProbs_eq hM, longProbs_eq hM]
  have hc : clipExponent (h r) < clipExponent (h' r) := by
    rw [clip_eq (abs_le.2 ⟨h1, by linarith⟩), clip_eq (abs_le.2 ⟨by linarith, h2⟩)]; exact hlt
  have he : longExponentials h r < longExponentials h' r := Real.exp_lt_exp.2 hc
  have split : ∀ g : R → ℝ, ∑ s ∈ rowsOf f (f r), longExponentials g s =
      longExponentials g r + ∑ s ∈ (rowsOf f (f r)).erase r, longExponentials g s := fun g =>
    (Finset.add_sum_erase _ (fun s => longExponentials g s) (by simp)).symm
  have rest : ∑ s ∈ (rowsOf f (f r)).erase r, longExponentials h' s =
      ∑ s ∈ (rowsOf f (f r)).erase r, longExponentials h s := by
    refine Finset.sum_congr rfl fun s hs => ?_
    rw [longExponentials, longExponentials, hsame s (Finset.ne_of_mem_erase hs)]
  have pos : 0 < ∑ s ∈ (rowsOf f (f r)).erase r, longExponentials h s :=
    Finset.sum_pos (fun s _ => longExponentials_pos h s)
      ⟨q, by simp [hq, hfq]⟩
  have p1 := longExponentials_pos h r
  have p2 := longExponentials_pos h' r
  rw [split h, split h', rest, div_lt_div_iff₀ (by linarith) (by linarith)]
  nlinarith

/-! ## C34: neutral shapes -/

/-- **C34**, Scobit: zero shape parameters and no outside intercepts leave the utilities unchanged,
so all results are those of the MNL model. -/
theorem scobit_zero_shape (ref : Option (Fin (n + 1))) {rta : Matrix R (Fin (n + 1)) ℝ}
    {alt : R → Fin (n + 1)} (hA : Indicates rta alt) (v : R → ℝ) (ids : R → ι) :
    scobitTransform ref v ids rta (some fun _ => 0) none = v := by
  funext r
  simp [scobitTransform, mulVec_indicates hA, scobit_one, allIntercepts]

/-- **C34**, Uneven. -/
theorem uneven_zero_shape (ref : Option (Fin (n + 1))) {rta : Matrix R (Fin (n + 1)) ℝ}
    {alt : R → Fin (n + 1)} (hA : Indicates rta alt) (v : R → ℝ) (ids : R → ι) :
    unevenTransform ref v ids rta (some fun _ => 0) none = v := by
  funext r
  simp [unevenTransform, mulVec_indicates hA, uneven_one, allIntercepts]

/-- **C34**, Asymmetric: with zero shapes the natural shapes are all `1/J`. -/
theorem asym_zero_shape_natural (sref : Fin (n + 1)) (j : Fin (n + 1)) :
    convertEtaToC sref (fun _ => 0) j = 1 / ((n + 1 : ℕ) : ℝ) := by
  rcases Fin.eq_self_or_eq_succAbove sref j with rfl | ⟨i, rfl⟩
  · rw [convertEtaToC_ref]; simp
  · rw [convertEtaToC_succAbove]; simp

/-- **C34**, Asymmetric: zero shapes and coefficients divided by `log J` give exactly the MNL
probabilities at the undivided coefficients (utilities within the clipping bounds). -/
theorem asym_zero_shape_probs {O : Type} [Fintype O] [DecidableEq O] (hn : 0 < n)
    (sref : Fin (n + 1)) (ref : Option (Fin (n + 1))) {M : Matrix R O ℝ} {f : R → O}
    (hM : Indicates M f) {rta : Matrix R (Fin (n + 1)) ℝ} {alt : R → Fin (n + 1)}
    (hA : Indicates rta alt) (X : Matrix R K ℝ) (β : K → ℝ) (ids : R → ι)
    (hb : ∀ r, |(X *ᵥ β) r| ≤ 700) (hb' : ∀ r, |(X *ᵥ β) r - Real.log (n + 1 : ℕ)| ≤ 700) :
    modelProbs (fun k => β k / Real.log (n + 1 : ℕ)) X ids M rta (asymTransform sref ref)
      none (some fun _ => 0) =
    modelProbs (S := Empty) (I := Empty) β X ids M rta mnlTransform none none := by
  have hlog : Real.log ((n + 1 : ℕ) : ℝ) ≠ 0 := by
    apply Real.log_ne_zero_of_pos_of_ne_one <;> push_cast
    · positivity
    · have : (0 : ℝ) < n := by exact_mod_cast hn
      linarith
  have hh : asymTransform sref ref (X *ᵥ fun k => β k / Real.log (n + 1 : ℕ)) ids rta
      (some fun _ => 0) none = fun r => (X *ᵥ β) r + -Real.log (n + 1 : ℕ) := by
    funext r
    simp only [asymTransform, mulVec_indicates hA, asym_zero_shape_natural,
      asym_neutral (J := n + 1) (by omega), allIntercepts]
    have : (X *ᵥ fun k => β k / Real.log (n + 1 : ℕ)) r * Real.log (n + 1 : ℕ) = (X *ᵥ β) r := by
      simp only [mulVec, dotProduct, Finset.sum_mul]
      refine Finset.sum_congr rfl fun k _ => ?_
      field_simp
    rw [this]; ring
  funext r
  simp only [modelProbs, hh, mnlTransform]
  rw [longProbs_eq_logitProb hM r (fun s _ => hb s),
    longProbs_eq_logitProb hM r (fun s _ => by rw [← sub_eq_add_neg]; exact hb' s)]
  simp only [logitProb, Real.exp_add, ← Finset.sum_mul]
  rw [mul_div_mul_right _ _ (Real.exp_pos _).ne']

/-! ## C35: natural shape parameters of the asymmetric model -/

/-- **C35**. The natural shapes are positive and sum to one; with two or more alternatives each is
below one. -/
theorem natural_shapes_are_probabilities (ref : Fin (n + 1)) (eta : Fin n → ℝ) :
    (∀ j, 0 < convertEtaToC ref eta j) ∧ ∑ j, convertEtaToC ref eta j = 1 ∧
      (0 < n → ∀ j, convertEtaToC ref eta j < 1) :=
  ⟨convertEtaToC_pos ref eta, convertEtaToC_sum ref eta, fun hn => convertEtaToC_lt_one ref eta hn⟩

/-- **C35** (positions). The estimated shape `i` belongs to the `i`-th alternative after removing the
reference one, and its log ratio to the reference alternative's natural shape is `eta i`. -/
theorem natural_shapes_log_ratio (ref : Fin (n + 1)) (eta : Fin n → ℝ) (i : Fin n) :
    Real.log (convertEtaToC ref eta (ref.succAbove i) / convertEtaToC ref eta ref) = eta i := by
  rw [convertEtaToC_ref, convertEtaToC_succAbove]
  have := eta_denom_pos eta
  rw [div_div_div_cancel_right₀ this.ne', div_one, Real.log_exp]

/-- **C35** (injectivity). Different shape parameters give different natural shapes. -/
theorem natural_shapes_injective (ref : Fin (n + 1)) :
    Injective (convertEtaToC (n := n) ref) := by
  intro a b h
  funext i
  rw [← natural_shapes_log_ratio ref a i, ← natural_shapes_log_ratio ref b i, h]

/-- **C35** (surjectivity onto the simplex). Every vector of positive numbers summing to one is the
vector of natural shapes of some shape parameters. -/
theorem natural_shapes_surjective (ref : Fin (n + 1)) (c : Fin (n + 1) → ℝ) (hc : ∀ j, 0 < c j)
    (hs : ∑ j, c j = 1) :
    convertEtaToC ref (fun i => Real.log (c (ref.succAbove i) / c ref)) = c := by
  have hd : (∑ i : Fin n, Real.exp (Real.log (c (ref.succAbove i) / c ref))) + 1 = 1 / c ref := by
    simp only [fun i => Real.exp_log (div_pos (hc (ref.succAbove i)) (hc ref))]
    rw [← Finset.sum_div, eq_div_iff (hc ref).ne', add_mul, div_mul_cancel₀ _ (hc ref).ne', one_mul,
      ← hs, Fin.sum_univ_succAbove c ref, add_comm]
  funext j
  rcases Fin.eq_self_or_eq_succAbove ref j with rfl | ⟨i, rfl⟩
  · rw [convertEtaToC_ref, hd, one_div_one_div]
  · rw [convertEtaToC_succAbove, hd, Real.exp_log (div_pos (hc _) (hc _))]
    have := (hc ref).ne'
    field_simp

/-- **C35** (Jacobian). The supplied derivative matrix is the Jacobian of the natural shapes. -/
theorem natural_shapes_jacobian (ref : Fin (n + 1)) (eta : Fin n → ℝ) :
    HasJacobian (convertEtaToC ref) (derivCEta ref (convertEtaToC ref eta)) eta :=
  fun j i => convertEtaToC_hasDerivAt ref eta j i

/-! ## Non-vacuity -/

/-- A membership matrix for two rows and two alternatives. -/
def exRta : Matrix (Fin 2) (Fin 2) ℝ := 1

theorem exRta_indicates : Indicates exRta id := by
  intro r j; simp [exRta, Matrix.one_apply]

example : DerivsCorrect (asymTransform 0 (some 1)) (asymDerivs 0 1 exRta ![0.3] ![1, -2])
    ![1, -2] (fun _ => (0 : ℤ)) exRta (some ![0.3]) (some ![0.5]) :=
  asym_derivs_correct_partial (by norm_num) 0 1 exRta_indicates _ _ _ _
    (by intro r; left; fin_cases r <;> norm_num)

example : DerivsCorrect (clogTransform (some 1)) (clogDerivs 1 exRta ![1, -2])
    ![1, -2] (fun _ => (0 : ℤ)) exRta none (some ![0.5]) :=
  clog_derivs_correct_partial 1 exRta_indicates _ (by intro r; fin_cases r <;> norm_num) _ _

end Pylogit
