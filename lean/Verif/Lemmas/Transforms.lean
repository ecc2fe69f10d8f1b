import Verif.Model.Transforms
import Verif.Lemmas.LogLik
import Mathlib.Analysis.SpecialFunctions.Pow.Deriv
import Mathlib.Analysis.SpecialFunctions.ExpDeriv

/-! # Helper lemmas about the scalar transformations -/

set_option linter.unusedSectionVars false

open Finset Matrix Filter Topology

namespace Pylogit

open Spec

variable {R : Type} {n : ℕ}

theorem logGuard_pos {x : ℝ} (hx : 0 < x) : logGuard x = Real.log x := if_neg hx.ne'

/-! ## Scobit -/

theorem one_lt_scobit_pow {c : ℝ} (hc : 0 < c) (v : ℝ) :
    1 < (1 + Real.exp (-1 * v)) ^ c :=
  Real.one_lt_rpow (by have := Real.exp_pos (-1 * v); linarith) hc

theorem scobit_hasDerivAt {c : ℝ} (hc : 0 < c) (v : ℝ) :
    HasDerivAt (scobitH c) (scobitDerivV c v) v := by
  have hp := Real.exp_pos (-1 * v)
  have h1 := one_lt_scobit_pow hc v
  have e1 : HasDerivAt (fun u : ℝ => 1 + Real.exp (-1 * u)) (Real.exp (-1 * v) * (-1)) v := by
    have := ((hasDerivAt_id v).const_mul (-1)).exp
    simpa using this.const_add 1
  have e2 := e1.rpow_const (p := c) (Or.inl (by positivity))
  have e3 := ((e2.sub_const 1).log (by linarith)).neg
  have : scobitDerivV c v =
      -(Real.exp (-1 * v) * -1 * c * (1 + Real.exp (-1 * v)) ^ (c - 1) /
        ((1 + Real.exp (-1 * v)) ^ c - 1)) := by
    simp only [scobitDerivV]
    rw [if_neg (by push Not; exact ⟨hp.ne', by linarith⟩)]
    ring
  rw [this]
  exact e3

theorem scobit_shape_hasDerivAt (v s : ℝ) :
    HasDerivAt (fun s => scobitH (Real.exp s) v) (scobitDerivShape (Real.exp s) v) s := by
  have hp := Real.exp_pos (-1 * v)
  have h1 := one_lt_scobit_pow (Real.exp_pos s) v
  have e2 : HasDerivAt (fun s => (1 + Real.exp (-1 * v)) ^ Real.exp s)
      (Real.exp s * Real.log (1 + Real.exp (-1 * v)) *
        (1 + Real.exp (-1 * v)) ^ Real.exp s) s := by
    have := (Real.hasDerivAt_exp s).const_rpow (a := 1 + Real.exp (-1 * v)) (by positivity)
    convert this using 1
    ring
  have e3 := ((e2.sub_const 1).log (by linarith)).neg
  have : scobitDerivShape (Real.exp s) v =
      -(Real.exp s * Real.log (1 + Real.exp (-1 * v)) * (1 + Real.exp (-1 * v)) ^ Real.exp s /
        ((1 + Real.exp (-1 * v)) ^ Real.exp s - 1)) := by
    simp only [scobitDerivShape]
    rw [if_neg (by linarith)]
    ring
  rw [this]
  exact e3

theorem scobit_strictMono {c : ℝ} (hc : 0 < c) : StrictMono (scobitH c) := by
  intro a b hab
  unfold scobitH
  have h1 := one_lt_scobit_pow hc b
  have h2 : Real.exp (-1 * b) < Real.exp (-1 * a) := Real.exp_lt_exp.2 (by linarith)
  have h3 : (1 + Real.exp (-1 * b)) ^ c < (1 + Real.exp (-1 * a)) ^ c :=
    Real.rpow_lt_rpow (by have := Real.exp_pos (-1 * b); linarith) (by linarith) hc
  have := Real.log_lt_log (by linarith) (sub_lt_sub_right h3 1)
  linarith

theorem scobit_one (v : ℝ) : scobitH 1 v = v := by simp [scobitH]

/-! ## Uneven -/

theorem uneven_hasDerivAt (c v : ℝ) : HasDerivAt (unevenH c) (unevenDerivV c v) v := by
  have hp := Real.exp_pos (-1 * v)
  have hq := Real.exp_pos (-1 * c * v)
  have e1 : HasDerivAt (fun u : ℝ => 1 + Real.exp (-1 * u)) (Real.exp (-1 * v) * (-1)) v := by
    have := ((hasDerivAt_id v).const_mul (-1)).exp
    simpa using this.const_add 1
  have e2 : HasDerivAt (fun u : ℝ => 1 + Real.exp (-1 * c * u))
      (Real.exp (-1 * c * v) * (-1 * c)) v := by
    have := ((hasDerivAt_id v).const_mul (-1 * c)).exp
    simpa using this.const_add 1
  have e3 := ((hasDerivAt_id v).add (e1.log (by positivity))).sub (e2.log (by positivity))
  have : unevenDerivV c v = 1 + Real.exp (-1 * v) * -1 / (1 + Real.exp (-1 * v)) -
      Real.exp (-1 * c * v) * (-1 * c) / (1 + Real.exp (-1 * c * v)) := by
    unfold unevenDerivV
    have : Real.exp (c * v) = (Real.exp (-1 * c * v))⁻¹ := by rw [← Real.exp_neg]; ring_nf
    rw [this]
    field_simp
    ring
  rw [this]
  exact e3

theorem uneven_shape_hasDerivAt (v s : ℝ) :
    HasDerivAt (fun s => unevenH (Real.exp s) v) (unevenDerivShape (Real.exp s) v) s := by
  have hq := Real.exp_pos (-1 * Real.exp s * v)
  have e2 : HasDerivAt (fun s : ℝ => 1 + Real.exp (-1 * Real.exp s * v))
      (Real.exp (-1 * Real.exp s * v) * (-1 * Real.exp s * v)) s := by
    have := (((Real.hasDerivAt_exp s).const_mul (-1)).mul_const v).exp
    simpa using this.const_add 1
  have e3 := (e2.log (by positivity)).const_sub (v + Real.log (1 + Real.exp (-1 * v)))
  have : unevenDerivShape (Real.exp s) v =
      -(Real.exp (-1 * Real.exp s * v) * (-1 * Real.exp s * v) /
        (1 + Real.exp (-1 * Real.exp s * v))) := by
    unfold unevenDerivShape
    have : Real.exp (Real.exp s * v) = (Real.exp (-1 * Real.exp s * v))⁻¹ := by
      rw [← Real.exp_neg]; ring_nf
    rw [this]
    field_simp
    ring
  rw [this]
  exact e3

theorem uneven_eq (c v : ℝ) :
    unevenH c v = Real.log (Real.exp v + 1) - Real.log (1 + Real.exp (-1 * c * v)) := by
  have : Real.log (Real.exp v + 1) = v + Real.log (1 + Real.exp (-1 * v)) := by
    have e : Real.exp v + 1 = Real.exp v * (1 + Real.exp (-1 * v)) := by
      rw [mul_add, ← Real.exp_add]; simp
    rw [e, Real.log_mul (Real.exp_pos v).ne'
      (by have := Real.exp_pos (-1 * v); positivity), Real.log_exp]
  rw [this, unevenH]

theorem uneven_strictMono {c : ℝ} (hc : 0 < c) : StrictMono (unevenH c) := by
  intro a b hab
  rw [uneven_eq, uneven_eq]
  have h1 : Real.log (Real.exp a + 1) < Real.log (Real.exp b + 1) :=
    Real.log_lt_log (by positivity) (by have := Real.exp_lt_exp.2 hab; linarith)
  have h2 : Real.log (1 + Real.exp (-1 * c * b)) ≤ Real.log (1 + Real.exp (-1 * c * a)) :=
    Real.log_le_log (by positivity)
      (by
        have : -1 * c * b ≤ -1 * c * a := by nlinarith
        have := Real.exp_le_exp.2 this; linarith)
  linarith

theorem uneven_one (v : ℝ) : unevenH 1 v = v := by simp [unevenH]

/-! ## Clog-log -/

theorem exp_exp_sub_one_pos (v : ℝ) : 0 < Real.exp (Real.exp v) - 1 := by
  have := Real.add_one_lt_exp (Real.exp_pos v).ne'
  have := Real.exp_pos v
  linarith

theorem clogDerivV_eq (v : ℝ) :
    clogDerivV v = Real.exp v / (1 - Real.exp (-Real.exp v)) := by
  have h1 : Real.exp (-Real.exp v) < 1 := by
    rw [Real.exp_lt_one_iff]; linarith [Real.exp_pos v]
  simp only [clogDerivV]
  rw [if_neg (by rw [neg_one_mul]; linarith), if_neg (Real.exp_pos _).ne', neg_one_mul, neg_one_mul,
    Real.exp_neg v]
  have := Real.exp_pos v
  have : (1 - Real.exp (-Real.exp v)) ≠ 0 := by linarith
  field_simp

theorem clog_low_hasDerivAt (v : ℝ) :
    HasDerivAt (fun v => Real.log (Real.exp (Real.exp v) - 1)) (clogDerivV v) v := by
  have h0 := exp_exp_sub_one_pos v
  have e := (((Real.hasDerivAt_exp v).exp).sub_const 1).log h0.ne'
  have : clogDerivV v = Real.exp (Real.exp v) * Real.exp v / (Real.exp (Real.exp v) - 1) := by
    rw [clogDerivV_eq]
    have h2 : Real.exp (-Real.exp v) = (Real.exp (Real.exp v))⁻¹ := Real.exp_neg _
    rw [h2]
    have := Real.exp_pos (Real.exp v)
    field_simp
  rw [this]
  exact e

theorem clogH_low {v : ℝ} (hv : v < 3.7) : clogH v = Real.log (Real.exp (Real.exp v) - 1) := by
  rw [clogH, if_neg (by linarith), logGuard_pos (exp_exp_sub_one_pos v)]

theorem clogH_high {v : ℝ} (hv : 3.7 ≤ v) : clogH v = Real.exp v := by
  rw [clogH, if_pos hv]

theorem clog_hasDerivAt {v : ℝ} (hv : v < 3.7) : HasDerivAt clogH (clogDerivV v) v := by
  refine (clog_low_hasDerivAt v).congr_of_eventuallyEq ?_
  filter_upwards [Iio_mem_nhds hv] with u hu
  exact clogH_low hu

theorem clog_hasDerivAt_high {v : ℝ} (hv : 3.7 < v) : HasDerivAt clogH (Real.exp v) v := by
  refine (Real.hasDerivAt_exp v).congr_of_eventuallyEq ?_
  filter_upwards [Ioi_mem_nhds hv] with u hu
  exact clogH_high (le_of_lt hu)

theorem clog_low_lt (v : ℝ) : Real.log (Real.exp (Real.exp v) - 1) < Real.exp v := by
  have h0 := exp_exp_sub_one_pos v
  calc Real.log (Real.exp (Real.exp v) - 1) < Real.log (Real.exp (Real.exp v)) :=
        Real.log_lt_log h0 (by linarith)
    _ = Real.exp v := Real.log_exp _

theorem clog_strictMono : StrictMono clogH := by
  intro a b hab
  rcases lt_or_ge b 3.7 with hb | hb
  · rw [clogH_low hb, clogH_low (hab.trans hb)]
    refine Real.log_lt_log (exp_exp_sub_one_pos a) ?_
    have := Real.exp_lt_exp.2 (Real.exp_lt_exp.2 hab)
    linarith
  · rw [clogH_high hb]
    have h2 := Real.exp_lt_exp.2 hab
    rcases lt_or_ge a 3.7 with ha | ha
    · rw [clogH_low ha]; exact (clog_low_lt a).trans h2
    · rw [clogH_high ha]; exact h2

/-! ## Asymmetric -/

theorem convertEtaToC_expEta (eta : Fin n → ℝ) (i : Fin n) :
    (if Real.exp (eta i) = 0 then minCompValue else Real.exp (eta i)) = Real.exp (eta i) :=
  if_neg (Real.exp_pos _).ne'

theorem convertEtaToC_ref (ref : Fin (n + 1)) (eta : Fin n → ℝ) :
    convertEtaToC ref eta ref = 1 / ((∑ i, Real.exp (eta i)) + 1) := by
  simp only [convertEtaToC, convertEtaToC_expEta, Fin.insertNth_apply_same]

theorem convertEtaToC_succAbove (ref : Fin (n + 1)) (eta : Fin n → ℝ) (i : Fin n) :
    convertEtaToC ref eta (ref.succAbove i) =
      Real.exp (eta i) / ((∑ i, Real.exp (eta i)) + 1) := by
  simp only [convertEtaToC, convertEtaToC_expEta, Fin.insertNth_apply_succAbove]

theorem eta_denom_pos (eta : Fin n → ℝ) : 0 < (∑ i, Real.exp (eta i)) + 1 := by
  have : 0 ≤ ∑ i, Real.exp (eta i) := Finset.sum_nonneg fun i _ => (Real.exp_pos _).le
  linarith

theorem convertEtaToC_pos (ref : Fin (n + 1)) (eta : Fin n → ℝ) (j : Fin (n + 1)) :
    0 < convertEtaToC ref eta j := by
  rcases Fin.eq_self_or_eq_succAbove ref j with rfl | ⟨i, rfl⟩
  · rw [convertEtaToC_ref]; exact div_pos one_pos (eta_denom_pos _)
  · rw [convertEtaToC_succAbove]; exact div_pos (Real.exp_pos _) (eta_denom_pos _)

theorem convertEtaToC_sum (ref : Fin (n + 1)) (eta : Fin n → ℝ) :
    ∑ j, convertEtaToC ref eta j = 1 := by
  rw [Fin.sum_univ_succAbove _ ref, convertEtaToC_ref]
  simp only [convertEtaToC_succAbove]
  rw [← Finset.sum_div, ← add_div, add_comm, div_self (eta_denom_pos _).ne']

theorem convertEtaToC_lt_one (ref : Fin (n + 1)) (eta : Fin n → ℝ) (hn : 0 < n)
    (j : Fin (n + 1)) : convertEtaToC ref eta j < 1 := by
  have hs := convertEtaToC_sum ref eta
  rw [Fin.sum_univ_succAbove _ j] at hs
  have : 0 < ∑ i : Fin n, convertEtaToC ref eta (j.succAbove i) :=
    Finset.sum_pos (fun i _ => convertEtaToC_pos ref eta _)
      (by have : Nonempty (Fin n) := ⟨⟨0, hn⟩⟩; exact Finset.univ_nonempty)
  linarith

/-- The supplied Jacobian entry is the derivative of `c_j` in `eta_i`. -/
theorem convertEtaToC_hasDerivAt (ref : Fin (n + 1)) (eta : Fin n → ℝ) (j : Fin (n + 1))
    (i : Fin n) :
    HasDerivAt (fun t => convertEtaToC ref (Function.update eta i t) j)
      (derivCEta ref (convertEtaToC ref eta) j i) (eta i) := by
  have hden := eta_denom_pos eta
  have hsum : HasDerivAt (fun t => (∑ k, Real.exp (Function.update eta i t k)) + 1)
      (Real.exp (eta i)) (eta i) := by
    have : HasDerivAt (fun t => ∑ k, Real.exp (Function.update eta i t k))
        (∑ k, if k = i then Real.exp (eta i) else 0) (eta i) := by
      refine HasDerivAt.fun_sum fun k _ => ?_
      by_cases hk : k = i
      · subst hk; simpa using Real.hasDerivAt_exp (eta k)
      · simpa [hk] using hasDerivAt_const (eta i) (Real.exp (eta k))
    simpa using this.add_const 1
  have hne : (∑ k, Real.exp (Function.update eta i (eta i) k)) + 1 ≠ 0 := by
    rw [Function.update_eq_self]; exact hden.ne'
  rcases Fin.eq_self_or_eq_succAbove ref j with rfl | ⟨m, rfl⟩
  · simp only [convertEtaToC_ref]
    have h := (hasDerivAt_const (eta i) (1 : ℝ)).div hsum hne
    simp only [Function.update_eq_self] at h
    have e : derivCEta j (convertEtaToC j eta) j i =
        (0 * ((∑ k, Real.exp (eta k)) + 1) - 1 * Real.exp (eta i)) /
          ((∑ k, Real.exp (eta k)) + 1) ^ 2 := by
      simp only [derivCEta, Matrix.sub_apply, Matrix.diagonal_apply, Matrix.vecMulVec_apply,
        convertEtaToC_ref, convertEtaToC_succAbove]
      rw [if_neg (Fin.succAbove_ne j i).symm]
      field_simp
      ring
    rw [e]; exact h
  · simp only [convertEtaToC_succAbove]
    have hnum : HasDerivAt (fun t => Real.exp (Function.update eta i t m))
        (if m = i then Real.exp (eta i) else 0) (eta i) := by
      by_cases hk : m = i
      · subst hk; simpa using Real.hasDerivAt_exp (eta m)
      · simpa [hk] using hasDerivAt_const (eta i) (Real.exp (eta m))
    have h := hnum.div hsum hne
    simp only [Function.update_eq_self] at h
    have e : derivCEta ref (convertEtaToC ref eta) (ref.succAbove m) i =
        ((if m = i then Real.exp (eta i) else 0) * ((∑ k, Real.exp (eta k)) + 1) -
          Real.exp (eta m) * Real.exp (eta i)) /
          ((∑ k, Real.exp (eta k)) + 1) ^ 2 := by
      simp only [derivCEta, Matrix.sub_apply, Matrix.diagonal_apply, Matrix.vecMulVec_apply,
        convertEtaToC_succAbove]
      by_cases hk : m = i
      · subst hk; simp; field_simp
      · have : ref.succAbove m ≠ ref.succAbove i := fun h => hk (Fin.succAbove_right_injective h)
        simp [hk, this]; field_simp
    rw [e]; exact h

theorem asymH_eq {J : ℕ} {c : ℝ} (hJ : 2 ≤ J) (hc0 : 0 < c) (hc1 : c < 1) (v : ℝ) :
    asymH J c v = Real.log c -
      v * (if v ≥ 0 then Real.log c else Real.log ((1 - c) / ((J : ℝ) - 1))) := by
  have h2 : (2 : ℝ) ≤ J := by exact_mod_cast hJ
  simp only [asymH]
  rw [logGuard_pos hc0, logGuard_pos (div_pos (by linarith) (by linarith))]

theorem asymDerivV_eq {J : ℕ} {c : ℝ} (hJ : 2 ≤ J) (hc0 : 0 < c) (hc1 : c < 1) (v : ℝ) :
    asymDerivV J c v =
      -(if v ≥ 0 then Real.log c else Real.log ((1 - c) / ((J : ℝ) - 1))) := by
  have h2 : (2 : ℝ) ≤ J := by exact_mod_cast hJ
  simp only [asymDerivV]
  rw [logGuard_pos hc0, logGuard_pos (div_pos (by linarith) (by linarith)), neg_one_mul]

theorem asym_hasDerivAt {J : ℕ} {c : ℝ} (hJ : 2 ≤ J) (hc0 : 0 < c) (hc1 : c < 1) {v : ℝ}
    (hv : v ≠ 0 ∨ c = 1 / J) : HasDerivAt (asymH J c) (asymDerivV J c v) v := by
  have h2 : (2 : ℝ) ≤ J := by exact_mod_cast hJ
  rw [asymDerivV_eq hJ hc0 hc1]
  have lin : ∀ a : ℝ, HasDerivAt (fun u : ℝ => Real.log c - u * a) (-a) v := fun a => by
    simpa using ((hasDerivAt_id v).mul_const a).const_sub (Real.log c)
  rcases hv with hv | hv
  · rcases lt_or_gt_of_ne hv with h | h
    · rw [if_neg (by linarith)]
      refine (lin _).congr_of_eventuallyEq ?_
      filter_upwards [Iio_mem_nhds h] with u hu
      rw [asymH_eq hJ hc0 hc1, if_neg (by simpa using hu)]
    · rw [if_pos (by linarith)]
      refine (lin _).congr_of_eventuallyEq ?_
      filter_upwards [Ioi_mem_nhds h] with u hu
      rw [asymH_eq hJ hc0 hc1, if_pos (le_of_lt hu)]
  · have e : (1 - c) / ((J : ℝ) - 1) = c := by
      rw [hv]
      have : (J : ℝ) - 1 ≠ 0 := by linarith
      field_simp
    have : asymH J c = fun u => Real.log c - u * Real.log c := by
      funext u; rw [asymH_eq hJ hc0 hc1, e, ite_self]
    rw [this, e, ite_self]
    exact lin _

theorem asymC_hasDerivAt {J : ℕ} {c : ℝ} (hJ : 2 ≤ J) (hc0 : 0 < c) (hc1 : c < 1) (v : ℝ) :
    HasDerivAt (fun c => asymH J c v) (asymDerivC c v) c := by
  have h2 : (2 : ℝ) ≤ J := by exact_mod_cast hJ
  have hJ1 : (J : ℝ) - 1 ≠ 0 := by linarith
  have l1 : HasDerivAt Real.log (1 / c) c := by simpa using Real.hasDerivAt_log hc0.ne'
  have l2 : HasDerivAt (fun c : ℝ => Real.log ((1 - c) / ((J : ℝ) - 1))) (-1 / (1 - c)) c := by
    have a : HasDerivAt (fun c : ℝ => (1 - c) / ((J : ℝ) - 1)) (-1 / ((J : ℝ) - 1)) c := by
      simpa using ((hasDerivAt_id c).const_sub 1).div_const ((J : ℝ) - 1)
    have b := a.log (div_pos (by linarith) (by linarith)).ne'
    convert b using 1
    have : (1 - c) ≠ 0 := by linarith
    field_simp
  have main : HasDerivAt (fun c => Real.log c -
      v * (if v ≥ 0 then Real.log c else Real.log ((1 - c) / ((J : ℝ) - 1)))) (asymDerivC c v) c := by
    unfold asymDerivC
    by_cases hv : v ≥ 0
    · simp only [hv, if_true]; exact l1.sub (l1.const_mul v)
    · simp only [hv, if_false]; exact l1.sub (l2.const_mul v)
  refine main.congr_of_eventuallyEq ?_
  filter_upwards [Ioo_mem_nhds hc0 hc1] with u hu
  exact asymH_eq hJ hu.1 hu.2 v

theorem asym_strictMono {J : ℕ} {c : ℝ} (hJ : 2 ≤ J) (hc0 : 0 < c) (hc1 : c < 1) :
    StrictMono (asymH J c) := by
  have h2 : (2 : ℝ) ≤ J := by exact_mod_cast hJ
  have a1 : Real.log c < 0 := Real.log_neg hc0 hc1
  have a2 : Real.log ((1 - c) / ((J : ℝ) - 1)) < 0 := by
    refine Real.log_neg (div_pos (by linarith) (by linarith)) ?_
    rw [div_lt_one (by linarith)]; linarith
  intro a b hab
  rw [asymH_eq hJ hc0 hc1, asymH_eq hJ hc0 hc1]
  split_ifs with h1 h3 h3 <;> nlinarith

theorem asym_neutral {J : ℕ} (hJ : 2 ≤ J) (v : ℝ) :
    asymH J (1 / J) v = v * Real.log J - Real.log J := by
  have h2 : (2 : ℝ) ≤ J := by exact_mod_cast hJ
  have e : (1 - 1 / (J : ℝ)) / ((J : ℝ) - 1) = 1 / J := by
    have : (J : ℝ) - 1 ≠ 0 := by linarith
    field_simp
  rw [asymH_eq hJ (by positivity) (by rw [div_lt_one] <;> linarith), e, ite_self,
    one_div, Real.log_inv]
  ring

end Pylogit
