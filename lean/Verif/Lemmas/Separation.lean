import Mathlib.Algebra.BigOperators.Field
import Mathlib.Analysis.SpecialFunctions.Log.Deriv
import Mathlib.Analysis.SpecialFunctions.ExpDeriv
import Mathlib.Analysis.Normed.Module.FiniteDimension
import Mathlib.Topology.Algebra.Module.FiniteDimension
import Verif.Spec.Separation
import Verif.Spec.Derivs

/-!
# Lemmas on the textbook logit log-likelihood
-/

set_option linter.unusedSectionVars false

open Finset Matrix Function

namespace Pylogit

open Spec

noncomputable section

variable {R O K : Type} [Fintype R] [DecidableEq R] [DecidableEq O] [Fintype K] [DecidableEq K]

namespace Sep

theorem mem_rows {f : R → O} {o : O} {r : R} : r ∈ rowsOf f o ↔ f r = o := by simp [rowsOf]

theorem denom_pos (f : R → O) (u : R → ℝ) (r : R) : 0 < ∑ s ∈ rowsOf f (f r), Real.exp (u s) :=
  Finset.sum_pos (fun _ _ => Real.exp_pos _) ⟨r, mem_rows.2 rfl⟩

theorem prob_pos (f : R → O) (u : R → ℝ) (r : R) : 0 < logitProb f u r :=
  div_pos (Real.exp_pos _) (denom_pos f u r)

theorem prob_sum (f : R → O) (u : R → ℝ) (r : R) : ∑ s ∈ rowsOf f (f r), logitProb f u s = 1 := by
  have : ∀ s ∈ rowsOf f (f r), logitProb f u s = Real.exp (u s) / ∑ s ∈ rowsOf f (f r), Real.exp (u s) := by
    intro s hs
    rw [logitProb, mem_rows.1 hs]
  rw [Finset.sum_congr rfl this, ← Finset.sum_div, div_self (denom_pos f u r).ne']

theorem log_prob (f : R → O) (u : R → ℝ) (r : R) :
    Real.log (logitProb f u r) = u r - Real.log (∑ s ∈ rowsOf f (f r), Real.exp (u s)) := by
  rw [logitProb, Real.log_div (Real.exp_pos _).ne' (denom_pos f u r).ne', Real.log_exp]

/-- How fast the log-probability of a row grows when the utilities move in the direction `w`. -/
def slope (f : R → O) (u w : R → ℝ) (r : R) : ℝ := w r - ∑ s ∈ rowsOf f (f r), logitProb f u s * w s

theorem tangent_gap (f : R → O) (u v : R → ℝ) (r : R) :
    Real.log (logitProb f v r) + Real.log (∑ s ∈ rowsOf f (f r), logitProb f u s *
        Real.exp ((v s - u s) - ∑ s ∈ rowsOf f (f r), logitProb f u s * (v s - u s))) =
      Real.log (logitProb f u r) + slope f u (fun s => v s - u s) r := by
  rw [log_prob, log_prob, slope]
  set D := ∑ s ∈ rowsOf f (f r), logitProb f u s * (v s - u s) with hD
  have pu := denom_pos f u r
  have pv := denom_pos f v r
  have h4 : ∀ s ∈ rowsOf f (f r), logitProb f u s * Real.exp ((v s - u s) - D) =
      Real.exp (v s) / ((∑ t ∈ rowsOf f (f r), Real.exp (u t)) * Real.exp D) := by
    intro s hs
    rw [logitProb, mem_rows.1 hs, div_mul_eq_mul_div, ← Real.exp_add, div_mul_eq_div_div,
      div_eq_div_iff pu.ne' (by positivity)]
    have : Real.exp (u s + (v s - u s - D)) = Real.exp (v s) / Real.exp D := by
      rw [← Real.exp_sub]; congr 1; ring
    rw [this]; field_simp
  rw [Finset.sum_congr rfl h4, ← Finset.sum_div, Real.log_div pv.ne' (by positivity),
    Real.log_mul pu.ne' (Real.exp_pos _).ne', Real.log_exp]
  ring

private theorem mean_one (f : R → O) (u w : R → ℝ) (r : R) :
    ∑ s ∈ rowsOf f (f r), logitProb f u s * (1 + (w s - ∑ s ∈ rowsOf f (f r), logitProb f u s * w s)) = 1 := by
  set D := ∑ s ∈ rowsOf f (f r), logitProb f u s * w s with hD
  have : ∀ s ∈ rowsOf f (f r), logitProb f u s * (1 + (w s - D)) =
      (1 - D) * logitProb f u s + logitProb f u s * w s := fun s _ => by ring
  rw [Finset.sum_congr rfl this, Finset.sum_add_distrib, ← Finset.mul_sum, prob_sum]
  rw [← hD]; ring

theorem tangent (f : R → O) (u v : R → ℝ) (r : R) :
    Real.log (logitProb f v r) ≤ Real.log (logitProb f u r) + slope f u (fun s => v s - u s) r := by
  rw [← tangent_gap]
  have h := mean_one f u (fun s => v s - u s) r
  refine le_add_of_nonneg_right (Real.log_nonneg ?_)
  rw [← h]
  exact Finset.sum_le_sum fun s _ =>
    mul_le_mul_of_nonneg_left (by rw [add_comm]; exact Real.add_one_le_exp _) (prob_pos f u s).le

/-- The tangent lies strictly above where the utilities of an observation do not move alike. -/
theorem tangent_strict (f : R → O) (u v : R → ℝ) {r q s : R} (hq : f q = f r) (hs : f s = f r)
    (hne : v q - u q ≠ v s - u s) :
    Real.log (logitProb f v r) < Real.log (logitProb f u r) + slope f u (fun s => v s - u s) r := by
  rw [← tangent_gap]
  have h := mean_one f u (fun s => v s - u s) r
  refine lt_add_of_pos_right _ (Real.log_pos ?_)
  obtain ⟨t, ht, htne⟩ : ∃ t, f t = f r ∧
      v t - u t ≠ ∑ s ∈ rowsOf f (f r), logitProb f u s * (v s - u s) := by
    by_contra hcon
    push Not at hcon
    exact hne ((hcon q hq).trans (hcon s hs).symm)
  rw [← h]
  refine Finset.sum_lt_sum (fun s _ => mul_le_mul_of_nonneg_left ?_ (prob_pos f u s).le)
    ⟨t, mem_rows.2 ht, mul_lt_mul_of_pos_left ?_ (prob_pos f u t)⟩
  · rw [add_comm]; exact Real.add_one_le_exp _
  · rw [add_comm]; exact Real.add_one_lt_exp (sub_ne_zero.2 htne)

theorem slope_eq (f : R → O) (u w : R → ℝ) (r : R) :
    slope f u w r = ∑ s ∈ rowsOf f (f r), logitProb f u s * (w r - w s) := by
  simp only [mul_sub, Finset.sum_sub_distrib, ← Finset.sum_mul, prob_sum, one_mul, slope]

variable {f : R → O} {a : R → ℝ} {X : Matrix R K ℝ} {δ : K → ℝ}

theorem slopes_pos (ha : ∀ r, 0 ≤ a r) (h : Separates f a X δ) (u : R → ℝ) :
    0 < ∑ r, a r * slope f u (X *ᵥ δ) r := by
  obtain ⟨h1, r, s, hr, hs, hlt⟩ := h
  have hn : ∀ r, 0 < a r → 0 ≤ slope f u (X *ᵥ δ) r := fun r hr => by
    rw [slope_eq]
    exact Finset.sum_nonneg fun t ht =>
      mul_nonneg (prob_pos f u t).le (sub_nonneg.2 (h1 r t hr (mem_rows.1 ht)))
  refine Finset.sum_pos' (fun q _ => ?_) ⟨r, Finset.mem_univ _, mul_pos hr ?_⟩
  · rcases (ha q).eq_or_lt with h0 | h0
    · rw [← h0, zero_mul]
    · exact mul_nonneg h0.le (hn q h0)
  · rw [slope_eq]
    exact Finset.sum_pos' (fun t ht => mul_nonneg (prob_pos f u t).le (sub_nonneg.2 (h1 r t hr (mem_rows.1 ht))))
      ⟨s, mem_rows.2 hs, mul_pos (prob_pos f u s) (sub_pos.2 hlt)⟩

theorem logLik_tangent (ha : ∀ r, 0 ≤ a r) (u v : R → ℝ) :
    logitLogLik f a v ≤ logitLogLik f a u + ∑ r, a r * slope f u (fun s => v s - u s) r := by
  rw [logitLogLik, logitLogLik, ← Finset.sum_add_distrib]
  refine Finset.sum_le_sum fun r _ => ?_
  rw [← mul_add]
  exact mul_le_mul_of_nonneg_left (tangent f u v r) (ha r)

theorem slope_neg (u w : R → ℝ) (r : R) : slope f u (fun s => -w s) r = -slope f u w r := by
  simp only [slope, mul_neg, Finset.sum_neg_distrib]; ring

theorem slope_smul (u w : R → ℝ) (c : ℝ) (r : R) : slope f u (fun s => c * w s) r = c * slope f u w r := by
  simp only [slope, mul_sub, Finset.mul_sum]
  congr 1
  exact Finset.sum_congr rfl fun s _ => by ring

/-- Moving in a separating direction raises the log-likelihood. -/
theorem separated_better (ha : ∀ r, 0 ≤ a r) (h : Separates f a X δ) (x : K → ℝ) {t : ℝ} (ht : 0 < t) :
    logitLogLik f a (X *ᵥ x) < logitLogLik f a (X *ᵥ (x + t • δ)) := by
  have h1 := logLik_tangent (f := f) (a := a) ha (X *ᵥ (x + t • δ)) (X *ᵥ x)
  have e : (fun s => (X *ᵥ x) s - (X *ᵥ (x + t • δ)) s) = fun s => -(t * (X *ᵥ δ) s) := by
    funext s
    rw [Matrix.mulVec_add, Matrix.mulVec_smul]
    simp
  rw [e] at h1
  have h2 := slopes_pos ha h (X *ᵥ (x + t • δ))
  have e2 : ∑ r, a r * slope f (X *ᵥ (x + t • δ)) (fun s => -(t * (X *ᵥ δ) s)) r =
      -(t * ∑ r, a r * slope f (X *ᵥ (x + t • δ)) (X *ᵥ δ) r) := by
    rw [Finset.mul_sum, ← Finset.sum_neg_distrib]
    refine Finset.sum_congr rfl fun r _ => ?_
    rw [slope_neg, slope_smul]; ring
  rw [e2] at h1
  have := mul_pos ht h2
  linarith

/-! ### Existence -/

open Classical in
/-- The differences of the utilities from that of the chosen row. -/
def diffs (f : R → O) (a : R → ℝ) (X : Matrix R K ℝ) : (K → ℝ) →ₗ[ℝ] (R × R → ℝ) where
  toFun δ p := if 0 < a p.1 ∧ f p.2 = f p.1 then (X *ᵥ δ) p.2 - (X *ᵥ δ) p.1 else 0
  map_add' x y := by
    funext p
    simp only [Matrix.mulVec_add, Pi.add_apply]
    split_ifs <;> ring
  map_smul' c x := by
    funext p
    simp only [Matrix.mulVec_smul, Pi.smul_apply, smul_eq_mul, RingHom.id_apply]
    split_ifs <;> ring

/-- A subspace with no nonzero vector without positive entries meets every set bounded above in a bounded set. -/
theorem bounded_of_pointed {P : Type} [Fintype P] (W : Submodule ℝ (P → ℝ))
    (h : ∀ z ∈ W, (∀ p, z p ≤ 0) → z = 0) (C : P → ℝ) :
    ∃ B, 0 ≤ B ∧ ∀ z ∈ W, (∀ p, z p ≤ C p) → ‖z‖ ≤ B := by
  have hW : IsClosed (W : Set (P → ℝ)) := W.closed_of_finiteDimensional
  let φ : (P → ℝ) → ℝ := fun z => ∑ p, max 0 (z p)
  have hφ : Continuous φ := continuous_finsetSum _ fun p _ => continuous_const.max (continuous_apply p)
  have hφ0 : ∀ z, 0 ≤ φ z := fun z => Finset.sum_nonneg fun p _ => le_max_left _ _
  let S : Set (P → ℝ) := (W : Set (P → ℝ)) ∩ Metric.sphere 0 1
  have hS : IsCompact S := (isCompact_sphere 0 1).inter_left hW
  have hbig : ∀ z : P → ℝ, (∀ p, z p ≤ C p) → φ z ≤ ∑ p, |C p| := fun z hz =>
    Finset.sum_le_sum fun p _ => max_le (abs_nonneg _) ((hz p).trans (le_abs_self _))
  by_cases hne : S.Nonempty
  · obtain ⟨w, hw, hmin⟩ := hS.exists_isMinOn hne hφ.continuousOn
    have hpos : 0 < φ w := by
      refine (hφ0 w).lt_of_ne' fun h0 => ?_
      have hz : w = 0 := h w hw.1 fun p => by
        have := (Finset.sum_eq_zero_iff_of_nonneg fun p _ => le_max_left (0 : ℝ) (w p)).1 h0 p (Finset.mem_univ _)
        exact (le_max_right _ _).trans this.le
      have := hw.2
      rw [hz] at this
      simp at this
    refine ⟨(∑ p, |C p|) / φ w, div_nonneg (Finset.sum_nonneg fun _ _ => abs_nonneg _) hpos.le, fun z hz hzC => ?_⟩
    rcases eq_or_ne z 0 with rfl | hz0
    · rw [norm_zero]
      exact div_nonneg (Finset.sum_nonneg fun _ _ => abs_nonneg _) hpos.le
    have hn : 0 < ‖z‖ := norm_pos_iff.2 hz0
    have hmem : ‖z‖⁻¹ • z ∈ S := ⟨W.smul_mem _ hz, by
      rw [mem_sphere_zero_iff_norm, norm_smul, norm_inv, norm_norm, inv_mul_cancel₀ hn.ne']⟩
    have h1 : φ w ≤ φ (‖z‖⁻¹ • z) := hmin hmem
    have h2 : φ (‖z‖⁻¹ • z) = ‖z‖⁻¹ * φ z := by
      simp only [φ, Finset.mul_sum]
      refine Finset.sum_congr rfl fun p _ => ?_
      rw [mul_max_of_nonneg _ _ (inv_nonneg.2 hn.le), mul_zero]
      rfl
    rw [h2] at h1
    rw [le_div_iff₀ hpos]
    calc ‖z‖ * φ w ≤ ‖z‖ * (‖z‖⁻¹ * φ z) := mul_le_mul_of_nonneg_left h1 hn.le
      _ = φ z := by rw [← mul_assoc, mul_inv_cancel₀ hn.ne', one_mul]
      _ ≤ _ := hbig z hzC
  · refine ⟨0, le_rfl, fun z hz _ => ?_⟩
    by_contra hcon
    have hn : 0 < ‖z‖ := not_le.1 hcon
    exact hne ⟨‖z‖⁻¹ • z, W.smul_mem _ hz, by
      rw [mem_sphere_zero_iff_norm, norm_smul, norm_inv, norm_norm, inv_mul_cancel₀ hn.ne']⟩

/-- Minus the log-likelihood as a function of the differences of the utilities. -/
def lossOf (f : R → O) (a u : R → ℝ) (z : R × R → ℝ) : ℝ :=
  ∑ r, a r * Real.log (∑ s ∈ rowsOf f (f r), Real.exp (u s - u r + z (r, s)))

theorem lossOf_continuous (f : R → O) (a u : R → ℝ) : Continuous (lossOf f a u) := by
  refine continuous_finsetSum _ fun r _ => continuous_const.mul (Continuous.log ?_ fun z => ?_)
  · exact continuous_finsetSum _ fun s _ => (continuous_const.add (continuous_apply _)).rexp
  · exact (Finset.sum_pos (fun _ _ => Real.exp_pos _) ⟨r, mem_rows.2 rfl⟩).ne'

theorem lossOf_diffs (ha : ∀ r, 0 ≤ a r) (x₀ δ : K → ℝ) :
    logitLogLik f a (X *ᵥ (x₀ + δ)) = -lossOf f a (X *ᵥ x₀) (diffs f a X δ) := by
  rw [logitLogLik, lossOf, ← Finset.sum_neg_distrib]
  refine Finset.sum_congr rfl fun r _ => ?_
  rcases (ha r).eq_or_lt with h0 | h0
  · rw [← h0]; simp
  rw [log_prob, ← mul_neg]
  congr 1
  have : ∀ s ∈ rowsOf f (f r), Real.exp ((X *ᵥ x₀) s - (X *ᵥ x₀) r + diffs f a X δ (r, s)) =
      Real.exp ((X *ᵥ (x₀ + δ)) s) * Real.exp (-(X *ᵥ (x₀ + δ)) r) := by
    intro s hs
    rw [← Real.exp_add]
    congr 1
    have : diffs f a X δ (r, s) = (X *ᵥ δ) s - (X *ᵥ δ) r := by
      simp only [diffs, LinearMap.coe_mk, AddHom.coe_mk]
      rw [if_pos ⟨h0, mem_rows.1 hs⟩]
    rw [this, Matrix.mulVec_add]
    simp only [Pi.add_apply]
    ring
  rw [Finset.sum_congr rfl this, ← Finset.sum_mul, Real.log_mul (denom_pos f _ r).ne' (Real.exp_pos _).ne',
    Real.log_exp]
  ring

/-- Each utility difference is bounded by the loss. -/
theorem lossOf_bounds (ha : ∀ r, 0 ≤ a r) (u : R → ℝ) {z : R × R → ℝ} (hz : ∀ r, z (r, r) = 0) {r s : R}
    (hr : 0 < a r) (hs : f s = f r) : z (r, s) ≤ lossOf f a u z / a r - (u s - u r) := by
  have hlow : ∀ q t, f t = f q → u t - u q + z (q, t) ≤
      Real.log (∑ s ∈ rowsOf f (f q), Real.exp (u s - u q + z (q, s))) := fun q t ht => by
    rw [Real.le_log_iff_exp_le (Finset.sum_pos (fun _ _ => Real.exp_pos _) ⟨q, mem_rows.2 rfl⟩)]
    exact Finset.single_le_sum (f := fun s => Real.exp (u s - u q + z (q, s))) (fun _ _ => (Real.exp_pos _).le)
      (mem_rows.2 ht)
  have h0 : ∀ q, 0 ≤ a q * Real.log (∑ s ∈ rowsOf f (f q), Real.exp (u s - u q + z (q, s))) := fun q =>
    mul_nonneg (ha q) (by have := hlow q q rfl; rwa [sub_self, hz, add_zero] at this)
  have h1 : a r * Real.log (∑ s ∈ rowsOf f (f r), Real.exp (u s - u r + z (r, s))) ≤ lossOf f a u z :=
    Finset.single_le_sum (f := fun q => a q * Real.log (∑ s ∈ rowsOf f (f q), Real.exp (u s - u q + z (q, s))))
      (fun q _ => h0 q) (Finset.mem_univ r)
  have h2 := mul_le_mul_of_nonneg_left (hlow r s hs) hr.le
  have h3 : u s - u r + z (r, s) ≤ lossOf f a u z / a r := by
    rw [le_div_iff₀ hr]; linarith
  linarith

open Classical in
theorem estimate_exists (ha : ∀ r, 0 ≤ a r) (fixed : List K) (x₀ : K → ℝ)
    (h : ¬ ∃ δ, (∀ i ∈ fixed, δ i = 0) ∧ Separates f a X δ) : ∃ x, IsLogitEstimate f a X fixed x₀ x := by
  let V : Submodule ℝ (K → ℝ) :=
    { carrier := {δ | ∀ i ∈ fixed, δ i = 0}
      add_mem' := fun {x y} hx hy i hi => by rw [Pi.add_apply, hx i hi, hy i hi, add_zero]
      zero_mem' := fun i _ => rfl
      smul_mem' := fun c x hx i hi => by rw [Pi.smul_apply, hx i hi, smul_zero] }
  let W := V.map (diffs f a X)
  have hdiag : ∀ z ∈ W, ∀ r, z (r, r) = 0 := by
    rintro z ⟨δ, -, rfl⟩ r
    simp [diffs]
  have hoff : ∀ z ∈ W, ∀ p : R × R, ¬ (0 < a p.1 ∧ f p.2 = f p.1) → z p = 0 := by
    rintro z ⟨δ, -, rfl⟩ p hp
    simp only [diffs, LinearMap.coe_mk, AddHom.coe_mk, if_neg hp]
  have hpt : ∀ z ∈ W, (∀ p, z p ≤ 0) → z = 0 := by
    rintro z ⟨δ, hδ, rfl⟩ hle
    by_contra hne
    refine h ⟨δ, hδ, fun r s hr hs => ?_, ?_⟩
    · have := hle (r, s)
      simp only [diffs, LinearMap.coe_mk, AddHom.coe_mk] at this
      rw [if_pos ⟨hr, hs⟩] at this
      linarith
    · obtain ⟨p, hp⟩ := Function.ne_iff.1 hne
      have hp' : diffs f a X δ p < 0 := lt_of_le_of_ne (hle p) hp
      simp only [diffs, LinearMap.coe_mk, AddHom.coe_mk] at hp'
      split_ifs at hp' with hc
      · exact ⟨p.1, p.2, hc.1, hc.2, by linarith⟩
      · exact absurd hp' (lt_irrefl _)
  set G := lossOf f a (X *ᵥ x₀) with hG
  obtain ⟨B, hB0, hB⟩ := bounded_of_pointed W hpt fun p =>
    if 0 < a p.1 ∧ f p.2 = f p.1 then G 0 / a p.1 - ((X *ᵥ x₀) p.2 - (X *ᵥ x₀) p.1) else 0
  have hcomp : IsCompact ((W : Set (R × R → ℝ)) ∩ Metric.closedBall 0 B) :=
    (isCompact_closedBall 0 B).inter_left W.closed_of_finiteDimensional
  obtain ⟨w, hw, hmin⟩ := hcomp.exists_isMinOn ⟨0, W.zero_mem, by simpa using hB0⟩
    (lossOf_continuous f a (X *ᵥ x₀)).continuousOn
  have hall : ∀ z ∈ W, G w ≤ G z := by
    intro z hz
    by_cases hle : G z ≤ G 0
    · refine hmin ⟨hz, ?_⟩
      rw [mem_closedBall_zero_iff]
      refine hB z hz fun p => ?_
      split_ifs with hc
      · have := lossOf_bounds ha (X *ᵥ x₀) (hdiag z hz) (s := p.2) hc.1 hc.2
        have h2 := div_le_div_of_nonneg_right hle hc.1.le
        linarith
      · exact (hoff z hz p hc).le
    · have h0 : G w ≤ G 0 := hmin ⟨W.zero_mem, by simpa using hB0⟩
      linarith [not_le.1 hle]
  obtain ⟨δ, hδ, rfl⟩ := hw.1
  refine ⟨x₀ + δ, fun i hi => by rw [Pi.add_apply, hδ i hi, add_zero], fun y hy => ?_⟩
  have hyV : y - x₀ ∈ V := fun i hi => by rw [Pi.sub_apply, hy i hi, sub_self]
  have := hall _ ⟨y - x₀, hyV, rfl⟩
  rw [show y = x₀ + (y - x₀) by abel, lossOf_diffs ha, lossOf_diffs ha]
  linarith

/-! ### Stationary points -/

theorem clipped_eq {u : R → ℝ} (hu : ∀ r, |u r| ≤ 700) : clippedLogLik f a u = logitLogLik f a u := by
  have : (fun r => clip700 (u r)) = u := by
    funext r
    have := abs_le.1 (hu r)
    rw [clip700, min_eq_left this.2, max_eq_right this.1]
  simp only [clippedLogLik, logitLogLik, clippedLogit, this]

theorem mulVec_update (X : Matrix R K ℝ) (x : K → ℝ) (k : K) (t : ℝ) (r : R) :
    (X *ᵥ update x k t) r = (X *ᵥ x) r + (t - x k) * X r k := by
  have : update x k t = x + (t - x k) • Pi.single k 1 := by
    funext i
    by_cases hi : i = k
    · subst hi; simp
    · simp [hi]
  rw [this, Matrix.mulVec_add, Matrix.mulVec_smul, Matrix.mulVec_single_one]
  simp [Matrix.col]

theorem logLik_deriv (X : Matrix R K ℝ) (x : K → ℝ) (k : K) :
    HasDerivAt (fun t => logitLogLik f a (X *ᵥ update x k t)) (∑ r, a r * slope f (X *ᵥ x) (fun s => X s k) r) (x k) := by
  have hu : ∀ r, HasDerivAt (fun t => (X *ᵥ update x k t) r) (X r k) (x k) := fun r => by
    simp only [mulVec_update]
    simpa using (((hasDerivAt_id (x k)).sub_const (x k)).mul_const (X r k)).const_add ((X *ᵥ x) r)
  unfold logitLogLik
  refine HasDerivAt.fun_sum fun r _ => HasDerivAt.const_mul _ ?_
  simp only [log_prob]
  have h1 : HasDerivAt (fun t => ∑ s ∈ rowsOf f (f r), Real.exp ((X *ᵥ update x k t) s))
      (∑ s ∈ rowsOf f (f r), Real.exp ((X *ᵥ x) s) * X s k) (x k) := by
    refine HasDerivAt.fun_sum fun s _ => ?_
    have := (hu s).exp
    rwa [update_eq_self] at this
  have h2 := h1.log (by rw [update_eq_self]; exact (denom_pos f _ r).ne')
  have h3 := (hu r).sub h2
  refine h3.congr_deriv ?_
  rw [update_eq_self, slope, Finset.sum_div]
  congr 1
  refine Finset.sum_congr rfl fun s hs => ?_
  rw [logitProb, mem_rows.1 hs]
  ring

theorem eventually_inside {x : K → ℝ} (hx : ∀ r, |(X *ᵥ x) r| < 700) (δ : K → ℝ) :
    ∀ᶠ t in nhds (0 : ℝ), ∀ r, |(X *ᵥ (x + t • δ)) r| < 700 := by
  rw [Filter.eventually_all]
  intro r
  have hc : Continuous fun t : ℝ => |(X *ᵥ (x + t • δ)) r| := by
    simp only [Matrix.mulVec_add, Matrix.mulVec_smul, Pi.add_apply, Pi.smul_apply, smul_eq_mul]
    fun_prop
  refine hc.continuousAt.eventually_lt continuousAt_const ?_
  simpa using hx r

theorem clipped_deriv (X : Matrix R K ℝ) {x : K → ℝ} (hx : ∀ r, |(X *ᵥ x) r| < 700) (k : K) :
    HasDerivAt (fun t => clippedLogLik f a (X *ᵥ update x k t))
      (∑ r, a r * slope f (X *ᵥ x) (fun s => X s k) r) (x k) := by
  refine (logLik_deriv (f := f) (a := a) X x k).congr_of_eventuallyEq ?_
  have h := eventually_inside hx (Pi.single k 1)
  have hs : Filter.Tendsto (fun t : ℝ => t - x k) (nhds (x k)) (nhds 0) := by
    have : Continuous fun t : ℝ => t - x k := by fun_prop
    simpa using this.tendsto (x k)
  filter_upwards [hs.eventually h] with t ht
  refine clipped_eq fun r => ?_
  have := ht r
  rw [Matrix.mulVec_add, Matrix.mulVec_smul, Matrix.mulVec_single_one] at this
  rw [mulVec_update]
  simpa [Matrix.col] using this.le

theorem slope_mulVec (X : Matrix R K ℝ) (u : R → ℝ) (δ : K → ℝ) (r : R) :
    slope f u (X *ᵥ δ) r = ∑ k, slope f u (fun s => X s k) r * δ k := by
  simp only [slope, sub_mul, Finset.sum_sub_distrib]
  congr 1
  simp only [Matrix.mulVec, dotProduct, Finset.mul_sum, Finset.sum_mul]
  rw [Finset.sum_comm]
  exact Finset.sum_congr rfl fun k _ => Finset.sum_congr rfl fun s _ => by ring

/-- The partial derivatives of the log-likelihood, added up along a direction. -/
theorem partials_along {x g : K → ℝ} (hx : ∀ r, |(X *ᵥ x) r| < 700)
    (hg : HasPartials (fun θ => clippedLogLik f a (X *ᵥ θ)) g x) (δ : K → ℝ) :
    ∑ k, g k * δ k = ∑ r, a r * slope f (X *ᵥ x) (X *ᵥ δ) r := by
  have h1 : ∀ k, g k = ∑ r, a r * slope f (X *ᵥ x) (fun s => X s k) r := fun k =>
    (hg k).unique (clipped_deriv X hx k)
  simp only [h1, slope_mulVec, Finset.sum_mul, Finset.mul_sum]
  rw [Finset.sum_comm]
  exact Finset.sum_congr rfl fun k _ => Finset.sum_congr rfl fun s _ => by ring

end Sep

end

end Pylogit
