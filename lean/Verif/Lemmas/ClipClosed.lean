import Mathlib.Analysis.InnerProductSpace.PiL2
import Mathlib.Analysis.Normed.Module.FiniteDimension
import Mathlib.Topology.MetricSpace.ProperSpace
import Verif.Spec.Mixed

/-!
# The clipped points of an affine subspace form a closed set

So a continuous function of clipped utilities has a maximum, although the coefficients behind them are not bounded.
-/

open Filter Topology

namespace Pylogit

open Spec

namespace Clip

variable {R : Type} [Fintype R]

local notation "E" => EuclideanSpace ℝ R

theorem continuous_clip700 : Continuous clip700 := by
  unfold clip700
  fun_prop

/-- Which utilities are clipped above, below, or not. -/
inductive Side | up | down | mid
  deriving DecidableEq

instance : Fintype Side := ⟨{.up, .down, .mid}, fun s => by cases s <;> decide⟩

/-- A number on its side of the bounds. -/
def OnSide : Side → ℝ → Prop
  | .up, t => 700 ≤ t
  | .down, t => t ≤ -700
  | .mid, t => |t| ≤ 700

theorem onSide_closed (s : Side) : IsClosed {t | OnSide s t} := by
  cases s
  · exact isClosed_Ici
  · exact isClosed_Iic
  · exact isClosed_le continuous_abs continuous_const

theorem clip_up {t : ℝ} (h : 700 ≤ t) : clip700 t = 700 := by
  rw [clip700, min_eq_right h]; norm_num

theorem clip_down {t : ℝ} (h : t ≤ -700) : clip700 t = -700 := by
  rw [clip700, min_eq_left (by linarith), max_eq_left h]

theorem exists_side (t : ℝ) : ∃ s, OnSide s t := by
  rcases le_total 700 t with h | h
  · exact ⟨.up, h⟩
  rcases le_total t (-700) with h' | h'
  · exact ⟨.down, h'⟩
  · exact ⟨.mid, abs_le.2 ⟨h', h⟩⟩

/-- The points of the affine subspace whose entries are on the given sides. -/
def piece (W : Submodule ℝ E) (c : E) (P : R → Side) : Set E := {w | w - c ∈ W ∧ ∀ r, OnSide (P r) (w r)}

theorem piece_closed (W : Submodule ℝ E) (c : E) (P : R → Side) : IsClosed (piece W c P) := by
  have h1 : IsClosed {w : E | w - c ∈ W} := by
    have : IsClosed (W : Set E) := W.closed_of_finiteDimensional
    exact this.preimage (by fun_prop : Continuous fun w : E => w - c)
  have h2 : IsClosed {w : E | ∀ r, OnSide (P r) (w r)} := by
    have : {w : E | ∀ r, OnSide (P r) (w r)} = ⋂ r, (fun w : E => w r) ⁻¹' {t | OnSide (P r) t} := by
      ext w; simp
    rw [this]
    exact isClosed_iInter fun r => (onSide_closed (P r)).preimage (by fun_prop)
  exact h1.inter h2

/-- Clipping all entries. -/
noncomputable def clipAll (w : E) : R → ℝ := fun r => clip700 (w r)

omit [Fintype R] in
theorem continuous_clipAll : Continuous (clipAll : E → R → ℝ) :=
  continuous_pi fun r => continuous_clip700.comp (by fun_prop)

theorem image_closed (W : Submodule ℝ E) (c : E) (P : R → Side) : IsClosed (clipAll '' piece W c P) := by
  apply IsSeqClosed.isClosed
  intro z zl hz hlim
  -- the shortest points behind the clipped ones
  have hmin : ∀ n, ∃ w ∈ piece W c P, clipAll w = z n ∧ ∀ w' ∈ piece W c P, clipAll w' = z n → ‖w‖ ≤ ‖w'‖ := by
    intro n
    obtain ⟨w₀, hw₀, hzw₀⟩ := hz n
    have hcl : IsClosed (piece W c P ∩ clipAll ⁻¹' {z n}) :=
      (piece_closed W c P).inter (isClosed_singleton.preimage continuous_clipAll)
    obtain ⟨w, hw, hd⟩ := hcl.exists_infDist_eq_dist ⟨w₀, hw₀, hzw₀⟩ 0
    refine ⟨w, hw.1, hw.2, fun w' h1 h2 => ?_⟩
    have := Metric.infDist_le_dist_of_mem (x := (0 : E)) (show w' ∈ piece W c P ∩ clipAll ⁻¹' {z n} from ⟨h1, h2⟩)
    rw [hd] at this
    simpa using this
  choose w hw hwz hwmin using hmin
  by_cases hb : ∃ B, ∃ᶠ n in atTop, ‖w n‖ ≤ B
  · obtain ⟨B, hB⟩ := hb
    obtain ⟨v, -, φ, hφ, hv⟩ := (isCompact_closedBall (0 : E) B).tendsto_subseq' (x := w)
      (hB.mono fun n hn => by simpa using hn)
    refine ⟨v, (piece_closed W c P).mem_of_tendsto hv (Eventually.of_forall fun n => hw _), ?_⟩
    have h1 := (continuous_clipAll.tendsto v).comp hv
    have h2 : Tendsto (clipAll ∘ (w ∘ φ)) atTop (𝓝 zl) := by
      have : clipAll ∘ (w ∘ φ) = z ∘ φ := funext fun n => hwz (φ n)
      rw [this]
      exact hlim.comp hφ.tendsto_atTop
    exact tendsto_nhds_unique h1 h2
  · exfalso
    have hinf : Tendsto (fun n => ‖w n‖) atTop atTop := by
      rw [tendsto_atTop]
      intro B
      have := not_exists.1 hb B
      rw [not_frequently] at this
      filter_upwards [this] with n hn
      exact (not_le.1 hn).le
    -- a direction in which the points run away
    obtain ⟨d, hd1, φ, hφ, hd⟩ := (isCompact_sphere (0 : E) 1).tendsto_subseq' (x := fun n => ‖w n‖⁻¹ • w n) (by
      refine Eventually.frequently ?_
      filter_upwards [hinf.eventually_gt_atTop 0] with n hn
      rw [mem_sphere_zero_iff_norm, norm_smul, norm_inv, norm_norm, inv_mul_cancel₀ hn.ne'])
    have hinf' : Tendsto (fun n => ‖w (φ n)‖) atTop atTop := hinf.comp hφ.tendsto_atTop
    have hinv : Tendsto (fun n => ‖w (φ n)‖⁻¹) atTop (𝓝 0) := tendsto_inv_atTop_zero.comp hinf'
    have hdW : d ∈ W := by
      have hcl : IsClosed (W : Set E) := W.closed_of_finiteDimensional
      have h1 : Tendsto (fun n => ‖w (φ n)‖⁻¹ • w (φ n) - ‖w (φ n)‖⁻¹ • c) atTop (𝓝 (d - (0 : ℝ) • c)) :=
        hd.sub (hinv.smul_const c)
      rw [zero_smul, sub_zero] at h1
      refine hcl.mem_of_tendsto h1 (Eventually.of_forall fun n => ?_)
      rw [← smul_sub]
      exact W.smul_mem _ (hw _).1
    have hdr : ∀ r, Tendsto (fun n => ‖w (φ n)‖⁻¹ * w (φ n) r) atTop (𝓝 (d r)) := fun r => by
      have hc : Continuous fun v : E => v r := by fun_prop
      have := (hc.tendsto d).comp hd
      exact this
    have hpos : ∀ n, 0 ≤ ‖w (φ n)‖⁻¹ := fun n => inv_nonneg.2 (norm_nonneg _)
    have hmul : ∀ n r, 0 < ‖w (φ n)‖ → w (φ n) r = ‖w (φ n)‖ * (‖w (φ n)‖⁻¹ * w (φ n) r) := fun n r h => by
      rw [← mul_assoc, mul_inv_cancel₀ h.ne', one_mul]
    -- going back along it changes nothing
    have hback : ∀ᶠ n in atTop, ∀ r, OnSide (P r) ((w (φ n) - d) r) ∧ clip700 ((w (φ n) - d) r) = clip700 (w (φ n) r) := by
      rw [eventually_all]
      intro r
      have hon : ∀ n, OnSide (P r) (w (φ n) r) := fun n => (hw _).2 r
      rcases hP : P r with _ | _ | _
      · rw [hP] at hon
        have h0 : 0 ≤ d r := ge_of_tendsto (hdr r) (Eventually.of_forall fun n =>
          mul_nonneg (hpos n) (le_trans (by norm_num) (show (700 : ℝ) ≤ _ from hon n)))
        rcases h0.eq_or_lt with h0 | h0
        · filter_upwards with n
          have e : (w (φ n) - d) r = w (φ n) r := by
            rw [PiLp.sub_apply, ← h0, sub_zero]
          rw [e]
          exact ⟨hon n, rfl⟩
        · have h1 : Tendsto (fun n => ‖w (φ n)‖ * (‖w (φ n)‖⁻¹ * w (φ n) r)) atTop atTop :=
            hinf'.atTop_mul_pos h0 (hdr r)
          filter_upwards [h1.eventually_ge_atTop (700 + d r), hinf'.eventually_gt_atTop 0] with n h2 h3
          rw [← hmul n r h3] at h2
          have h4 : 700 ≤ (w (φ n) - d) r := by rw [PiLp.sub_apply]; linarith
          exact ⟨h4, by rw [clip_up h4, clip_up (hon n)]⟩
      · rw [hP] at hon
        have h0 : d r ≤ 0 := le_of_tendsto (hdr r) (Eventually.of_forall fun n =>
          mul_nonpos_of_nonneg_of_nonpos (hpos n) (le_trans (show _ ≤ (-700 : ℝ) from hon n) (by norm_num)))
        rcases h0.eq_or_lt with h0 | h0
        · filter_upwards with n
          have e : (w (φ n) - d) r = w (φ n) r := by
            rw [PiLp.sub_apply, h0, sub_zero]
          rw [e]
          exact ⟨hon n, rfl⟩
        · have h1 : Tendsto (fun n => ‖w (φ n)‖ * (‖w (φ n)‖⁻¹ * w (φ n) r)) atTop atBot :=
            hinf'.atTop_mul_neg h0 (hdr r)
          filter_upwards [h1.eventually_le_atBot (-700 + d r), hinf'.eventually_gt_atTop 0] with n h2 h3
          rw [← hmul n r h3] at h2
          have h4 : (w (φ n) - d) r ≤ -700 := by rw [PiLp.sub_apply]; linarith
          exact ⟨h4, by rw [clip_down h4, clip_down (hon n)]⟩
      · rw [hP] at hon
        have h1 : Tendsto (fun n => ‖w (φ n)‖⁻¹ * w (φ n) r) atTop (𝓝 0) := by
          refine squeeze_zero_norm (a := fun n => ‖w (φ n)‖⁻¹ * 700) (fun n => ?_) (by simpa using hinv.mul_const 700)
          rw [norm_mul, Real.norm_of_nonneg (hpos n)]
          exact mul_le_mul_of_nonneg_left (hon n) (hpos n)
        have h0 : d r = 0 := tendsto_nhds_unique (hdr r) h1
        filter_upwards with n
        have e : (w (φ n) - d) r = w (φ n) r := by
          rw [PiLp.sub_apply, h0, sub_zero]
        rw [e]
        exact ⟨hon n, rfl⟩
    -- and shortens the points
    have hnd : ‖d‖ = 1 := by simpa using hd1
    have hin : Tendsto (fun n => ‖w (φ n)‖ * inner ℝ (‖w (φ n)‖⁻¹ • w (φ n)) d) atTop atTop := by
      refine hinf'.atTop_mul_pos (C := 1) one_pos ?_
      have h1 : Tendsto (fun n => inner ℝ (‖w (φ n)‖⁻¹ • w (φ n)) d) atTop (𝓝 (inner ℝ d d)) :=
        hd.inner tendsto_const_nhds
      rwa [real_inner_self_eq_norm_sq, hnd, one_pow] at h1
    obtain ⟨n, h1, h2, h3⟩ := (hback.and ((hin.eventually_gt_atTop 1).and (hinf'.eventually_gt_atTop 0))).exists
    have hmem : w (φ n) - d ∈ piece W c P := by
      refine ⟨?_, fun r => (h1 r).1⟩
      rw [sub_right_comm]
      exact W.sub_mem (hw _).1 hdW
    have hz' : clipAll (w (φ n) - d) = z (φ n) := by
      rw [← hwz]
      exact funext fun r => (h1 r).2
    have hle := hwmin (φ n) _ hmem hz'
    have hsq := norm_sub_sq_real (w (φ n)) d
    rw [hnd] at hsq
    rw [real_inner_smul_left, ← mul_assoc, mul_inv_cancel₀ h3.ne', one_mul] at h2
    have := pow_le_pow_left₀ (norm_nonneg _) hle 2
    linarith

/-- A continuous function of clipped utilities has a maximum on every affine subspace of utilities. -/
theorem attained {G : (R → ℝ) → ℝ} (hG : Continuous G) (W : Submodule ℝ (R → ℝ)) (c : R → ℝ) :
    ∃ w, w - c ∈ W ∧ ∀ v, v - c ∈ W → G (fun r => clip700 (v r)) ≤ G fun r => clip700 (w r) := by
  classical
  let e := (EuclideanSpace.equiv R ℝ).toLinearEquiv
  let W' : Submodule ℝ E := W.comap e.toLinearMap
  let S : Set (R → ℝ) := ⋃ P : R → Side, clipAll '' piece W' (e.symm c) P
  have hS : IsClosed S := isClosed_iUnion_of_finite fun P => image_closed W' _ P
  have hb : S ⊆ Set.pi Set.univ fun _ => Set.Icc (-700) 700 := by
    rintro z hz r -
    obtain ⟨P, w, -, rfl⟩ := Set.mem_iUnion.1 hz
    exact ⟨le_max_left _ _, max_le (by norm_num) (min_le_right _ _)⟩
  have hcomp : IsCompact S := (isCompact_univ_pi fun _ => isCompact_Icc).of_isClosed_subset hS hb
  have hin : ∀ v, v - c ∈ W → (fun r => clip700 (v r)) ∈ S := by
    intro v hv
    choose P hP using fun r => exists_side (v r)
    exact Set.mem_iUnion.2 ⟨P, e.symm v, ⟨by
      change e (e.symm v - e.symm c) ∈ W
      rw [map_sub, e.apply_symm_apply, e.apply_symm_apply]
      exact hv, hP⟩, rfl⟩
  obtain ⟨z, hz, hmax⟩ := hcomp.exists_isMaxOn ⟨_, hin c (by rw [sub_self]; exact W.zero_mem)⟩ hG.continuousOn
  obtain ⟨P, w, hw, rfl⟩ := Set.mem_iUnion.1 hz
  refine ⟨e w, ?_, fun v hv => hmax (hin v hv)⟩
  have : e (w - e.symm c) ∈ W := hw.1
  rwa [map_sub, e.apply_symm_apply] at this

end Clip

end Pylogit
