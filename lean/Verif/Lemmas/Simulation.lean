import Mathlib.Probability.Moments.Variance
import Mathlib.Tactic
import Verif.Spec.Simulation

/-!
# Averages of independent simulations
-/

open MeasureTheory ProbabilityTheory Finset

namespace Pylogit

open Spec

noncomputable section

variable {Ω : Type} [MeasurableSpace Ω] {μ : Measure Ω}

/-- The deviates of one person under one draw are independent standard normals. -/
theorem stream_law {g : Rng} {S : Ω → g.State} {n people d : ℕ} (h : StandardNormalStream g μ S n people d)
    (i : Fin people) (t : Fin d) :
    μ.map (fun ω (j : Fin n) => normalStream g people d j (S ω) i t) =
      Measure.pi fun _ : Fin n => gaussianReal 0 1 := by
  have hinj : Function.Injective fun j : Fin n => ((j, i, t) : Fin n × Fin people × Fin d) := by
    intro a b hab
    simpa using hab
  have hp := h.indep.isProbabilityMeasure
  have h1 := h.indep.precomp hinj
  rw [iIndepFun_iff_map_fun_eq_pi_map fun j => (h.meas j i t).aemeasurable] at h1
  refine h1.trans ?_
  congr 1
  funext j
  exact h.law j i t

/-- The deviates of one person under two different draws are independent. -/
theorem stream_indep {g : Rng} {S : Ω → g.State} {n people d : ℕ} (h : StandardNormalStream g μ S n people d)
    (i : Fin people) {t t' : Fin d} (htt : t ≠ t') :
    IndepFun (fun ω (j : Fin n) => normalStream g people d j (S ω) i t)
      (fun ω (j : Fin n) => normalStream g people d j (S ω) i t') μ := by
  let A (t : Fin d) : Finset (Fin n × Fin people × Fin d) := univ.image fun j : Fin n => (j, i, t)
  have hmem : ∀ t j, (j, i, t) ∈ A t := fun t j => mem_image.2 ⟨j, mem_univ _, rfl⟩
  have hd : Disjoint (A t) (A t') := by
    rw [Finset.disjoint_left]
    intro q hq hq'
    obtain ⟨a, -, rfl⟩ := mem_image.1 hq
    obtain ⟨b, -, hb⟩ := mem_image.1 hq'
    exact htt (by simpa using (congrArg (fun q => q.2.2) hb).symm)
  have h1 := h.indep.indepFun_finset (A t) (A t') hd fun q => h.meas q.1 q.2.1 q.2.2
  have hm : ∀ t, Measurable fun (x : A t → ℝ) (j : Fin n) => x ⟨(j, i, t), hmem t j⟩ := fun t => by fun_prop
  exact h1.comp (hm t) (hm t')

/-- The average of a bounded statistic of the deviates of one person: mean, variance and deviations. -/
theorem simulation_error {g : Rng} {S : Ω → g.State} {n people d : ℕ} (h : StandardNormalStream g μ S n people d)
    (hμ : IsProbabilityMeasure μ) (hd : 0 < d) (i : Fin people) {f : (Fin n → ℝ) → ℝ} (hf : Measurable f)
    (h0 : ∀ z, 0 ≤ f z) (h1 : ∀ z, f z ≤ 1) :
    let X := fun ω => Spec.average fun t : Fin d => f fun j => normalStream g people d j (S ω) i t
    Measurable X ∧ (∫ ω, X ω ∂μ) = normalMean n f ∧ variance X μ ≤ 1 / (4 * (d : ℝ)) ∧
    ∀ ε : ℝ, 0 < ε → μ {ω | ε ≤ |X ω - normalMean n f|} ≤ ENNReal.ofReal (1 / (4 * (d : ℝ) * ε ^ 2)) := by
  intro X
  let Y : Fin d → Ω → ℝ := fun t ω => f fun j => normalStream g people d j (S ω) i t
  have hYm : ∀ t, Measurable (Y t) := fun t =>
    hf.comp (measurable_pi_lambda _ fun j => h.meas j i t)
  have hYb : ∀ t, ∀ᵐ ω ∂μ, Y t ω ∈ Set.Icc (0 : ℝ) 1 := fun t => ae_of_all _ fun ω => ⟨h0 _, h1 _⟩
  have hYl : ∀ t, MemLp (Y t) 2 μ := fun t => memLp_of_bounded (hYb t) (hYm t).aestronglyMeasurable 2
  have hYi : ∀ t, Integrable (Y t) μ := fun t => (hYl t).integrable (by norm_num)
  have hX : X = fun ω => (d : ℝ)⁻¹ * (∑ t, Y t) ω := by
    funext ω
    simp [X, Y, Spec.average]
  have hXm : Measurable X := by
    rw [hX]
    refine Measurable.const_mul ?_ _
    rw [show (∑ t, Y t) = fun ω => ∑ t, Y t ω from by funext ω; simp]
    exact Finset.measurable_sum _ fun t _ => hYm t
  have hd' : (d : ℝ) ≠ 0 := by positivity
  have hmean : (∫ ω, X ω ∂μ) = normalMean n f := by
    have e : ∀ t, (∫ ω, Y t ω ∂μ) = normalMean n f := by
      intro t
      rw [normalMean, ← stream_law h i t, integral_map]
      · exact (measurable_pi_lambda _ fun j => h.meas j i t).aemeasurable
      · exact hf.aestronglyMeasurable
    rw [hX]
    rw [integral_const_mul]
    simp only [Finset.sum_apply]
    rw [integral_finsetSum _ fun t _ => hYi t]
    simp only [e, sum_const, card_univ, Fintype.card_fin, nsmul_eq_mul]
    field_simp
  have hvar : variance X μ ≤ 1 / (4 * (d : ℝ)) := by
    rw [hX, variance_const_mul, IndepFun.variance_sum (fun t _ => hYl t)]
    · have e : ∀ t ∈ (univ : Finset (Fin d)), variance (Y t) μ ≤ 1 / 4 := fun t _ => by
        refine (variance_le_sq_of_bounded (hYb t) (hYm t).aemeasurable).trans (by norm_num)
      calc ((d : ℝ)⁻¹) ^ 2 * ∑ t, variance (Y t) μ ≤ ((d : ℝ)⁻¹) ^ 2 * ∑ _t : Fin d, (1 / 4 : ℝ) := by
            gcongr with t ht
            exact e t ht
        _ = 1 / (4 * (d : ℝ)) := by
            simp only [sum_const, card_univ, Fintype.card_fin, nsmul_eq_mul]
            field_simp
    · intro t _ t' _ htt
      exact (stream_indep h i htt).comp hf hf
  refine ⟨hXm, hmean, hvar, fun ε hε => ?_⟩
  have hXl : MemLp X 2 μ := by
    refine memLp_of_bounded (a := 0) (b := 1) (ae_of_all _ fun ω => ?_) hXm.aestronglyMeasurable 2
    have hs0 : 0 ≤ ∑ t, Y t ω := sum_nonneg fun t _ => h0 _
    have hs1 : ∑ t, Y t ω ≤ d := by
      calc ∑ t, Y t ω ≤ ∑ _t : Fin d, (1 : ℝ) := sum_le_sum fun t _ => h1 _
        _ = d := by simp
    rw [hX]
    simp only [Finset.sum_apply]
    refine ⟨by positivity, ?_⟩
    rw [inv_mul_le_iff₀ (by positivity)]
    linarith
  rw [← hmean]
  refine (meas_ge_le_variance_div_sq hXl hε).trans (ENNReal.ofReal_le_ofReal ?_)
  rw [show 1 / (4 * (d : ℝ) * ε ^ 2) = 1 / (4 * (d : ℝ)) / ε ^ 2 from by field_simp]
  gcongr

end

end Pylogit
