import Verif.Spec.Resampling
import Verif.Lemmas.Mappings

/-!
# Uniform draws from finite sets
-/

open MeasureTheory ProbabilityTheory Finset

namespace Pylogit

open Spec

noncomputable section

variable {Ω : Type} [MeasurableSpace Ω] {μ : Measure Ω}

omit [MeasurableSpace Ω] in
private lemma split_values {L : List ℝ} {X : Ω → ℝ} (hX : ∀ ω, X ω ∈ L) (f : ℝ → ℝ) (ω : Ω) :
    f (X ω) = ∑ o ∈ L.toFinset, {ω | X ω = o}.indicator (fun _ => f o) ω := by
  rw [Finset.sum_eq_single (X ω)]
  · simp
  · intro o _ h
    rw [Set.indicator_of_notMem]
    exact fun h' => h (by simpa using h'.symm)
  · intro h
    exact absurd (List.mem_toFinset.2 (hX ω)) h

theorem values_measurable {L : List ℝ} {X : Ω → ℝ} (hm : Measurable X) (hX : ∀ ω, X ω ∈ L) (f : ℝ → ℝ) :
    Measurable fun ω => f (X ω) := by
  simp only [split_values hX f]
  exact Finset.measurable_sum _ fun o _ => measurable_const.indicator (hm (measurableSet_singleton o))

omit [MeasurableSpace Ω] in
theorem values_bounded {L : List ℝ} {X : Ω → ℝ} (hX : ∀ ω, X ω ∈ L) (f : ℝ → ℝ) (ω : Ω) :
    f (X ω) ∈ Set.Icc (-∑ o ∈ L.toFinset, |f o|) (∑ o ∈ L.toFinset, |f o|) := by
  have : |f (X ω)| ≤ ∑ o ∈ L.toFinset, |f o| :=
    Finset.single_le_sum (f := fun o => |f o|) (fun o _ => abs_nonneg _) (List.mem_toFinset.2 (hX ω))
  exact abs_le.1 this

theorem values_memLp (hμ : IsProbabilityMeasure μ) {L : List ℝ} {X : Ω → ℝ} (hm : Measurable X) (hX : ∀ ω, X ω ∈ L)
    (f : ℝ → ℝ) : MemLp (fun ω => f (X ω)) 2 μ :=
  memLp_of_bounded (ae_of_all _ (values_bounded hX f)) (values_measurable hm hX f).aestronglyMeasurable 2

theorem uniform_mean (hμ : IsProbabilityMeasure μ) {L : List ℝ} {X : Ω → ℝ} (hm : Measurable X) (hX : ∀ ω, X ω ∈ L)
    (hu : ∀ o ∈ L, μ.real {ω | X ω = o} = 1 / L.length) (f : ℝ → ℝ) :
    (∫ ω, f (X ω) ∂μ) = (∑ o ∈ L.toFinset, f o) / L.length := by
  simp only [split_values hX f]
  rw [integral_finsetSum _ fun o _ => (integrable_const _).indicator (hm (measurableSet_singleton o)), Finset.sum_div]
  refine Finset.sum_congr rfl fun o ho => ?_
  have h1 := integral_indicator_const (μ := μ) (f o) (hm (measurableSet_singleton o))
  refine h1.trans ?_
  have h2 : μ.real (X ⁻¹' {o}) = 1 / L.length := hu o (List.mem_toFinset.1 ho)
  rw [h2, smul_eq_mul]
  ring

theorem uniform_variance (hμ : IsProbabilityMeasure μ) {L : List ℝ} {X : Ω → ℝ} (hm : Measurable X)
    (hX : ∀ ω, X ω ∈ L) (hu : ∀ o ∈ L, μ.real {ω | X ω = o} = 1 / L.length) (f : ℝ → ℝ) :
    variance (fun ω => f (X ω)) μ =
      (∑ o ∈ L.toFinset, (f o - (∑ p ∈ L.toFinset, f p) / L.length) ^ 2) / L.length := by
  rw [variance_eq_integral (values_measurable hm hX f).aemeasurable, uniform_mean hμ hm hX hu f]
  exact uniform_mean hμ hm hX hu fun x => (f x - (∑ p ∈ L.toFinset, f p) / L.length) ^ 2

/-- A function on a finite set of values is measurable if it is set to zero elsewhere. -/
theorem restricted_measurable (A : Finset ℝ) (f : ℝ → ℝ) : Measurable fun x => ∑ o ∈ A, if x = o then f o else 0 :=
  Finset.measurable_sum _ fun o _ => Measurable.ite (measurableSet_singleton o) measurable_const measurable_const

theorem restricted_apply {A : Finset ℝ} (f : ℝ → ℝ) {x : ℝ} (hx : x ∈ A) : (∑ o ∈ A, if x = o then f o else 0) = f x := by
  rw [Finset.sum_ite_eq, if_pos hx]

variable {g : Rng} {S : Ω → g.State} {N : ℕ} {l : List (List ℝ)}

/-- The position, among the ids chosen from the lists, of the `p`-th id that sample `i` takes from list `j`. -/
def sampleSlot (l : List (List ℝ)) (N : ℕ) (i : Fin N) (x : (j : Fin l.length) × Fin l[j].length) :
    (j : Fin l.length) × Fin (l[j].length * N) :=
  ⟨x.1, ⟨i * l[x.1].length + x.2, by
    calc (i : ℕ) * l[x.1].length + x.2 < i * l[x.1].length + l[x.1].length := Nat.add_lt_add_left x.2.2 _
      _ = l[x.1].length * (i + 1) := by ring
      _ ≤ l[x.1].length * N := Nat.mul_le_mul_left _ i.2⟩⟩

theorem sampleSlot_inj {i i' : Fin N} {x x' : (j : Fin l.length) × Fin l[j].length}
    (h : sampleSlot l N i x = sampleSlot l N i' x') : i = i' ∧ x = x' := by
  obtain ⟨j, p⟩ := x
  obtain ⟨j', p'⟩ := x'
  obtain rfl : j = j' := congrArg Sigma.fst h
  have h2 : (i : ℕ) * l[j].length + p = i' * l[j].length + p' :=
    congrArg Fin.val (eq_of_heq (Sigma.mk.inj_iff.1 h).2)
  have hp := p.2
  have hp' := p'.2
  have hi : (i : ℕ) = i' := by
    rcases lt_trichotomy (i : ℕ) i' with h | h | h
    · have := Nat.mul_le_mul_right l[j].length (show (i : ℕ) + 1 ≤ i' from h)
      rw [Nat.add_mul] at this
      omega
    · exact h
    · have := Nat.mul_le_mul_right l[j].length (show (i' : ℕ) + 1 ≤ i from h)
      rw [Nat.add_mul] at this
      omega
  rw [hi] at h2
  exact ⟨Fin.ext hi, by rw [show p = p' from Fin.ext (by omega)]⟩

theorem pick_mem (hg : ChoosesMembers g) (s : g.State) (j : Fin l.length) (q : Fin (l[j].length * N)) :
    pick g N l s j q ∈ l[j] := by
  have e : l.getD j [] = l[j] := by simp
  unfold pick
  rw [e]
  have hq := q.2
  obtain ⟨h1, h2⟩ := hg ℝ l[j] (l[j].length * N) (choiceState g N l s j) (Or.inl (by
    intro h
    have h' : l[j].length = 0 := by rw [h]; rfl
    have h'' : l[j].length * N = 0 := by rw [h', Nat.zero_mul]
    omega))
  rw [List.getD_eq_getElem?_getD, List.getElem?_eq_getElem (by rw [h1]; exact hq)]
  exact h2 _ (List.getElem_mem _)

/-- The sum of `f` over the ids of sample `i`: mean and variance. -/
theorem picks_moments (hμ : IsProbabilityMeasure μ) (hg : ChoosesMembers g) (hl : ∀ L ∈ l, L.Nodup)
    (h : UniformPicks g μ S N l) (i : Fin N) (f : ℝ → ℝ) :
    let T := fun ω => ∑ x : (j : Fin l.length) × Fin l[j].length,
      f (pick g N l (S ω) (sampleSlot l N i x).1 (sampleSlot l N i x).2)
    MemLp T 2 μ ∧ (∫ ω, T ω ∂μ) = ∑ j : Fin l.length, ∑ o ∈ l[j].toFinset, f o ∧
    variance T μ = ∑ j : Fin l.length, ∑ o ∈ l[j].toFinset, (f o - setMean l[j].toFinset f) ^ 2 := by
  intro T
  let Y : (x : (j : Fin l.length) × Fin l[j].length) → Ω → ℝ := fun x ω =>
    f (pick g N l (S ω) (sampleSlot l N i x).1 (sampleSlot l N i x).2)
  have hY : ∀ x, MemLp (Y x) 2 μ := fun x =>
    values_memLp hμ (h.meas _ _) (fun ω => pick_mem hg (S ω) (sampleSlot l N i x).1 (sampleSlot l N i x).2) f
  have hT : T = ∑ x, Y x := by
    funext ω
    simp [T, Y]
  have hcard : ∀ j : Fin l.length, (l[j].toFinset.card : ℝ) = l[j].length := fun j => by
    exact_mod_cast List.toFinset_card_of_nodup (hl _ (List.getElem_mem j.2))
  have hlen : ∀ j : Fin l.length, Fin l[j].length → (l[j].length : ℝ) ≠ 0 := fun j p => by
    have := p.2
    exact_mod_cast (by omega : l[j].length ≠ 0)
  refine ⟨?_, ?_, ?_⟩
  · rw [hT]
    exact memLp_finsetSum' _ fun x _ => hY x
  · have e : (∫ ω, T ω ∂μ) = ∑ x, ∫ ω, Y x ω ∂μ := by
      rw [← integral_finsetSum _ fun x _ => (hY x).integrable (by norm_num)]
    rw [e, Fintype.sum_sigma]
    refine Finset.sum_congr rfl fun j _ => ?_
    have : ∀ p : Fin l[j].length, (∫ ω, Y ⟨j, p⟩ ω ∂μ) = (∑ o ∈ l[j].toFinset, f o) / l[j].length := fun p =>
      uniform_mean hμ (h.meas _ _) (fun ω => pick_mem hg (S ω) j (sampleSlot l N i ⟨j, p⟩).2)
        (h.uniform j (sampleSlot l N i ⟨j, p⟩).2) f
    rw [Finset.sum_congr rfl fun p _ => this p, Finset.sum_const, card_univ, Fintype.card_fin, nsmul_eq_mul]
    by_cases h0 : (l[j].length : ℝ) = 0
    · have : l[j] = [] := List.length_eq_zero_iff.1 (by exact_mod_cast h0)
      rw [this]
      simp
    · field_simp
  · rw [hT, IndepFun.variance_sum (fun x _ => hY x), Fintype.sum_sigma]
    · refine Finset.sum_congr rfl fun j _ => ?_
      have : ∀ p : Fin l[j].length, variance (Y ⟨j, p⟩) μ =
          (∑ o ∈ l[j].toFinset, (f o - setMean l[j].toFinset f) ^ 2) / l[j].length := by
        intro p
        rw [setMean, hcard]
        exact uniform_variance hμ (h.meas _ _) (fun ω => pick_mem hg (S ω) j (sampleSlot l N i ⟨j, p⟩).2)
          (h.uniform j (sampleSlot l N i ⟨j, p⟩).2) f
      rw [Finset.sum_congr rfl fun p _ => this p, Finset.sum_const, card_univ, Fintype.card_fin, nsmul_eq_mul]
      by_cases h0 : (l[j].length : ℝ) = 0
      · have : l[j] = [] := List.length_eq_zero_iff.1 (by exact_mod_cast h0)
        rw [this]
        simp
      · field_simp
    · intro x _ x' _ hx
      let A : Finset ℝ := univ.biUnion fun j : Fin l.length => l[j].toFinset
      have hA : ∀ y ω, Y y ω = ∑ o ∈ A, if pick g N l (S ω) (sampleSlot l N i y).1 (sampleSlot l N i y).2 = o
          then f o else 0 := by
        intro y ω
        refine (restricted_apply f (mem_biUnion.2 ⟨y.1, mem_univ _, List.mem_toFinset.2 ?_⟩)).symm
        exact pick_mem hg (S ω) y.1 (sampleSlot l N i y).2
      have hne : sampleSlot l N i x ≠ sampleSlot l N i x' := fun e => hx (sampleSlot_inj e).2
      have := (h.indep.indepFun hne).comp (restricted_measurable A f) (restricted_measurable A f)
      rw [show Y x = _ from funext (hA x), show Y x' = _ from funext (hA x')]
      exact this

/-- Statistics of different samples are independent. -/
theorem picks_indep (hg : ChoosesMembers g) (h : UniformPicks g μ S N l) {i i' : Fin N} (hi : i ≠ i') (f f' : ℝ → ℝ) :
    IndepFun
      (fun ω => ∑ x : (j : Fin l.length) × Fin l[j].length,
        f (pick g N l (S ω) (sampleSlot l N i x).1 (sampleSlot l N i x).2))
      (fun ω => ∑ x : (j : Fin l.length) × Fin l[j].length,
        f' (pick g N l (S ω) (sampleSlot l N i' x).1 (sampleSlot l N i' x).2)) μ := by
  classical
  let B : Fin N → Finset ((j : Fin l.length) × Fin (l[j].length * N)) := fun i => univ.image (sampleSlot l N i)
  have hB : ∀ i x, sampleSlot l N i x ∈ B i := fun i x => mem_image_of_mem _ (mem_univ _)
  have hd : Disjoint (B i) (B i') := by
    rw [Finset.disjoint_left]
    intro q hq hq'
    obtain ⟨a, -, rfl⟩ := mem_image.1 hq
    obtain ⟨b, -, hb⟩ := mem_image.1 hq'
    exact hi (sampleSlot_inj hb).1.symm
  let A : Finset ℝ := univ.biUnion fun j : Fin l.length => l[j].toFinset
  have hA : ∀ (f : ℝ → ℝ) i x ω, f (pick g N l (S ω) (sampleSlot l N i x).1 (sampleSlot l N i x).2) =
      ∑ o ∈ A, if pick g N l (S ω) (sampleSlot l N i x).1 (sampleSlot l N i x).2 = o then f o else 0 := by
    intro f i x ω
    refine (restricted_apply f (mem_biUnion.2 ⟨x.1, mem_univ _, List.mem_toFinset.2 ?_⟩)).symm
    exact pick_mem hg (S ω) x.1 (sampleSlot l N i x).2
  have h1 := h.indep.indepFun_finset (B i) (B i') hd fun q => h.meas q.1 q.2
  have hm : ∀ (f : ℝ → ℝ) i, Measurable fun (y : B i → ℝ) =>
      ∑ x : (j : Fin l.length) × Fin l[j].length, ∑ o ∈ A, if y ⟨sampleSlot l N i x, hB i x⟩ = o then f o else 0 :=
    fun f i => Finset.measurable_sum _ fun x _ => (restricted_measurable A f).comp (measurable_pi_apply _)
  simp only [hA]
  exact h1.comp (hm f i) (hm f' i')

end

end Pylogit
