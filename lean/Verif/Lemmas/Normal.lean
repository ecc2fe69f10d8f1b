import Mathlib.Tactic
import Mathlib.Topology.Order.IntermediateValue
import Verif.Spec.Normal

/-!
# Facts about the standard normal distribution
-/

open MeasureTheory ProbabilityTheory Set Filter Topology

namespace Pylogit

open Spec

lemma normCdf_eq : normCdf = fun x => cdf (gaussianReal 0 1) x := by
  funext x
  rw [normCdf, cdf_eq_real]

lemma normCdf_strictMono : StrictMono normCdf := by
  intro x y hxy
  have hd : Iic x ∪ Ioc x y = Iic y := Iic_union_Ioc_eq_Iic hxy.le
  have hdisj : Disjoint (Iic x) (Ioc x y) := by
    rw [Set.disjoint_left]
    intro a ha hb
    exact absurd ha (not_le.mpr hb.1)
  have : normCdf y = normCdf x + (gaussianReal 0 1).real (Ioc x y) := by
    rw [normCdf, ← hd, measureReal_union hdisj measurableSet_Ioc, normCdf]
  have hpos : 0 < (gaussianReal 0 1).real (Ioc x y) := by
    rw [measureReal_def, ENNReal.toReal_pos_iff]
    refine ⟨?_, measure_lt_top _ _⟩
    rw [pos_iff_ne_zero]
    intro h0
    have := gaussianReal_absolutelyContinuous' 0 (one_ne_zero) h0
    rw [Real.volume_Ioc, ENNReal.ofReal_eq_zero] at this
    linarith
  linarith

lemma normSf_eq (x : ℝ) : normSf x = 1 - normCdf x := by
  have h := probReal_compl_eq_one_sub (μ := gaussianReal 0 1) (s := Iic x) measurableSet_Iic
  rwa [compl_Iic] at h

lemma normSf_strictAnti : StrictAnti normSf := by
  intro x y hxy
  have := normCdf_strictMono hxy
  rw [normSf_eq, normSf_eq]
  linarith

lemma normCdf_neg (x : ℝ) : normCdf (-x) = 1 - normCdf x := by
  rw [← normSf_eq, normCdf, normSf]
  have h := gaussianReal_map_neg (μ := 0) (v := 1)
  rw [neg_zero] at h
  have h1 : (gaussianReal 0 1) (Iic (-x)) = (gaussianReal 0 1) (Ici x) := by
    conv_lhs => rw [← h]
    rw [Measure.map_apply (measurable_neg) measurableSet_Iic]
    congr 1
    ext y
    simp
  have hna : NullSingletonClass (gaussianReal 0 1) := nullSingletonClass_gaussianReal one_ne_zero
  have h2 : (gaussianReal 0 1) (Ici x) = (gaussianReal 0 1) (Ioi x) :=
    measure_congr Ioi_ae_eq_Ici.symm
  rw [measureReal_def, measureReal_def, h1, h2]

lemma normCdf_zero : normCdf 0 = 1 / 2 := by
  have := normCdf_neg 0
  rw [neg_zero] at this
  linarith

lemma normCdf_continuous : Continuous normCdf := by
  rw [normCdf_eq, continuous_iff_continuousAt]
  intro x
  have hmono := (cdf (gaussianReal 0 1)).mono
  rw [hmono.continuousAt_iff_leftLim_eq_rightLim, StieltjesFunction.rightLim_eq]
  have hna : NullSingletonClass (gaussianReal 0 1) := nullSingletonClass_gaussianReal one_ne_zero
  have h := (cdf (gaussianReal 0 1)).measure_singleton x
  rw [measure_cdf, measure_singleton] at h
  have h' := ENNReal.ofReal_eq_zero.mp h.symm
  have := hmono.leftLim_le (le_refl x)
  linarith

lemma normCdf_pos (x : ℝ) : 0 < normCdf x :=
  lt_of_le_of_lt (measureReal_nonneg) (normCdf_strictMono (show x - 1 < x by linarith))

lemma normCdf_lt_one (x : ℝ) : normCdf x < 1 :=
  lt_of_lt_of_le (normCdf_strictMono (show x < x + 1 by linarith)) measureReal_le_one

/-- A quantile function exists. -/
lemma exists_normQuantile : ∃ ppf, IsNormQuantile ppf := by
  have h : ∀ q, 0 < q → q < 1 → ∃ x, normCdf x = q := by
    intro q h0 h1
    have hb : Tendsto normCdf atBot (𝓝 0) := by
      rw [normCdf_eq]; exact tendsto_cdf_atBot _
    have ht : Tendsto normCdf atTop (𝓝 1) := by
      rw [normCdf_eq]; exact tendsto_cdf_atTop _
    obtain ⟨a, ha⟩ := (hb.eventually (gt_mem_nhds h0)).exists
    obtain ⟨b, hb'⟩ := (ht.eventually (lt_mem_nhds h1)).exists
    have hab : a ≤ b := by
      by_contra hcon
      have := normCdf_strictMono (not_le.mp hcon)
      linarith
    obtain ⟨x, _, hx⟩ := intermediate_value_Icc hab normCdf_continuous.continuousOn ⟨ha.le, hb'.le⟩
    exact ⟨x, hx⟩
  classical
  refine ⟨fun q => if hq : 0 < q ∧ q < 1 then (h q hq.1 hq.2).choose else 0, ?_⟩
  intro q h0 h1
  simp only [h0, h1, and_self, dif_pos]
  exact (h q h0 h1).choose_spec

section quantile

variable {ppf : ℝ → ℝ} (hp : IsNormQuantile ppf)
include hp

lemma quantile_unique {ppf' : ℝ → ℝ} (hp' : IsNormQuantile ppf') {q : ℝ} (h0 : 0 < q) (h1 : q < 1) :
    ppf q = ppf' q :=
  normCdf_strictMono.injective ((hp q h0 h1).trans (hp' q h0 h1).symm)

lemma quantile_lt {q r : ℝ} (h0 : 0 < q) (h : q < r) (h1 : r < 1) : ppf q < ppf r := by
  by_contra hcon
  have := normCdf_strictMono.monotone (not_lt.mp hcon)
  rw [hp q h0 (h.trans h1), hp r (h0.trans h) h1] at this
  linarith

lemma quantile_pos {q : ℝ} (h0 : 1 / 2 < q) (h1 : q < 1) : 0 < ppf q := by
  by_contra hcon
  have := normCdf_strictMono.monotone (not_lt.mp hcon)
  rw [hp q (by linarith) h1, normCdf_zero] at this
  linarith

lemma quantile_compl {q : ℝ} (h0 : 0 < q) (h1 : q < 1) : ppf (1 - q) = - ppf q := by
  apply normCdf_strictMono.injective
  rw [hp _ (by linarith) (by linarith), normCdf_neg, hp q h0 h1]

lemma quantile_cdf (x : ℝ) : ppf (normCdf x) = x :=
  normCdf_strictMono.injective (hp _ (normCdf_pos x) (normCdf_lt_one x))

end quantile

end Pylogit
