import Verif.Spec.Random
import Verif.Props.Mixed
import Verif.Props.Sampler

/-!
# C97: seeds make draws, predictions and bootstrap samples reproducible
-/

namespace Pylogit

open Spec

variable (g : Rng)

theorem normalsLoop_length (m d n : ℕ) (s : g.State) : (normalsLoop g m d n s).1.length = n := by
  induction n generalizing s with
  | zero => rfl
  | succ n ih => simp [normalsLoop, ih]

theorem normalsLoop_eq (m d n : ℕ) (s : g.State) :
    (normalsLoop g m d n s).1 = (List.range n).map fun i => normalStream g m d i s := by
  induction n generalizing s with
  | zero => rfl
  | succ n ih =>
    rw [List.range_succ_eq_map, List.map_cons, List.map_map]
    simp only [normalsLoop, ih]
    rfl

/-- **C97**.  `get_normal_draws` succeeds exactly for at least one unit, a positive integer number of draws, at
least one variable and no seed or a positive integer seed (that NumPy accepts).  Then it returns, for the
variables in order, consecutive arrays of the generator's stream: from its present state without a seed, and
from the seed's state with one. -/
theorem normal_draws_iff (m : ℕ) (numDraws : IntArg) (n : ℕ) (seed : Option IntArg) (s : g.State) (d : ℕ)
    (l : List (Fin m → Fin d → ℝ)) (s' : g.State) :
    normalDraws g m numDraws n seed s = .ok ⟨d, l, s'⟩ ↔
      0 < m ∧ 0 < d ∧ 0 < n ∧ numDraws = .int d ∧
      ∃ s₀, (seed = none ∧ s₀ = s ∨ ∃ k : ℤ, 0 < k ∧ seed = some (.int k) ∧ g.seed k = .ok s₀) ∧
        l = (List.range n).map (fun i => normalStream g m d i s₀) ∧
        s' = (normalsLoop g m d n s₀).2 := by
  have hseed : ∀ s₀, seedNormals g seed s = .ok s₀ ↔
      (seed = none ∧ s₀ = s ∨ ∃ k : ℤ, 0 < k ∧ seed = some (.int k) ∧ g.seed k = .ok s₀) := by
    intro s₀
    cases seed with
    | none => simp [seedNormals, eq_comm]
    | some x =>
      cases x with
      | other => simp [seedNormals]
      | int k =>
        simp only [seedNormals]
        split_ifs with h
        · simp [h]
        · simp [h]
  cases numDraws with
  | other => simp [normalDraws]
  | int k =>
    simp only [normalDraws]
    split_ifs with h
    · obtain ⟨h1, h2, h3⟩ := h
      obtain ⟨k, rfl⟩ : ∃ j : ℕ, k = j := ⟨k.toNat, by omega⟩
      simp only [Int.toNat_natCast]
      constructor
      · intro hok
        cases hs : seedNormals g seed s with
        | error e => rw [hs] at hok; cases hok
        | ok s₀ =>
          rw [hs] at hok
          have hok' : (⟨k, normalsLoop g m k n s₀⟩ :
              (d : ℕ) × (List (Fin m → Fin d → ℝ) × g.State)) = ⟨d, l, s'⟩ := by
            injection hok
          obtain ⟨rfl, h⟩ := Sigma.mk.inj_iff.1 hok'
          have h := eq_of_heq h
          refine ⟨h1, by exact_mod_cast h2, h3, rfl, s₀, (hseed s₀).1 hs, ?_, ?_⟩
          · rw [← normalsLoop_eq, h]
          · rw [h]
      · rintro ⟨-, -, -, hk, s₀, hs, rfl, rfl⟩
        have hk : k = d := by
          have := IntArg.int.inj hk
          exact_mod_cast this
        subst hk
        rw [(hseed s₀).2 hs, ← normalsLoop_eq]
        rfl
    · constructor
      · intro h'; cases h'
      · rintro ⟨h1, h2, h3, hk, -⟩
        refine absurd ⟨h1, ?_, h3⟩ h
        rw [IntArg.int.inj hk]
        exact_mod_cast h2

/-- Every refusal is an `AssertionError`, unless NumPy itself refuses the seed. -/
theorem normal_draws_errors (hg : ∀ k : ℤ, 0 < k → ∃ s, g.seed k = .ok s) (m : ℕ) (numDraws : IntArg)
    (n : ℕ) (seed : Option IntArg) (s : g.State) {e : Err}
    (h : normalDraws g m numDraws n seed s = .error e) : e = .assertionError := by
  have hs : ∀ e, seedNormals g seed s = .error e → e = .assertionError := by
    intro e he
    cases seed with
    | none => cases he
    | some x =>
      cases x with
      | other => injection he with he; exact he.symm
      | int k =>
        simp only [seedNormals] at he
        split_ifs at he with hk
        · obtain ⟨s, hs⟩ := hg k hk
          rw [hs] at he; cases he
        · injection he with he; exact he.symm
  cases numDraws with
  | other => injection h with h; exact h.symm
  | int k =>
    simp only [normalDraws] at h
    split_ifs at h with hc
    · cases hn : seedNormals g seed s with
      | error e' =>
        rw [hn] at h
        injection h with h
        exact h ▸ hs e' hn
      | ok s₀ => rw [hn] at h; cases h
    · injection h with h; exact h.symm

/-- **C97**.  With a seed, the draws (or the error) and the state the generator is left in do not depend on what
was drawn before. -/
theorem normal_draws_seeded (m : ℕ) (numDraws : IntArg) (n : ℕ) (k : IntArg) (s s' : g.State) :
    normalDraws g m numDraws n (some k) s = normalDraws g m numDraws n (some k) s' := by
  cases k <;> rfl

/-- **C97**.  With the same seed, further mixing variables do not change the draws of the first ones. -/
theorem normal_draws_prefix {m : ℕ} {numDraws : IntArg} {n n' : ℕ} (hn : n ≤ n') {k : IntArg}
    {s s' t t' : g.State} {d d' : ℕ} {l : List (Fin m → Fin d → ℝ)} {l' : List (Fin m → Fin d' → ℝ)}
    (h : normalDraws g m numDraws n (some k) s = .ok ⟨d, l, t⟩)
    (h' : normalDraws g m numDraws n' (some k) s' = .ok ⟨d', l', t'⟩) :
    ∃ hd : d' = d, l = (hd ▸ l').take n := by
  obtain ⟨-, -, -, hk, s₀, hs, rfl, -⟩ := (normal_draws_iff g ..).1 h
  obtain ⟨-, -, -, hk', s₀', hs', rfl, -⟩ := (normal_draws_iff g ..).1 h'
  have hd : d' = d := by
    have := IntArg.int.inj (hk'.symm.trans hk)
    exact_mod_cast this
  subst hd
  refine ⟨rfl, ?_⟩
  have : s₀ = s₀' := by
    rcases hs with ⟨h, -⟩ | ⟨a, -, ha, hb⟩
    · cases h
    · rcases hs' with ⟨h, -⟩ | ⟨a', -, ha', hb'⟩
      · cases h
      · rw [ha] at ha'
        have : a = a' := IntArg.int.inj (Option.some.inj ha')
        subst this
        rw [hb] at hb'
        injection hb'
  subst this
  simp only
  rw [← List.map_take, List.take_range, min_eq_left hn]

/-- The draws are those of the model with the generator as a parameter, so its theorems apply. -/
theorem normal_draws_model {m : ℕ} {numDraws : IntArg} {n : ℕ} {seed : Option IntArg} {s t : g.State} {d : ℕ}
    {l : List (Fin m → Fin d → ℝ)} (h : normalDraws g m numDraws n seed s = .ok ⟨d, l, t⟩) :
    ∃ s₀, getNormalDraws m d n (fun i => normalStream g m d i s₀) = .ok l ∧ l.length = n := by
  obtain ⟨hm, hd, hn, -, s₀, -, rfl, -⟩ := (normal_draws_iff g ..).1 h
  exact ⟨s₀, by rw [getNormalDraws, if_pos ⟨hm, hd, hn⟩], by simp⟩

section Predict

variable {R O A K ι : Type} {m : ℕ} [Fintype R] [Fintype O] [Fintype K] [DecidableEq K]

omit [DecidableEq K] in
/-- **C97**.  Predictions of a mixed logit model with a seed do not depend on what was drawn before. -/
theorem mixed_predict_seeded (pos : List K) (coefs : K ⊕ Fin pos.length → ℝ) (X : Matrix R K ℝ)
    (ids : R → ι) (M : Matrix R O ℝ) (rta : Matrix R A ℝ) (Q : Matrix R (Fin m) ℝ) (numDraws k : IntArg)
    (C : Option (Matrix R O ℝ)) (long : Bool) (s s' : g.State) :
    mixedPredictRng g pos coefs X ids M rta Q numDraws (some k) C long s =
      mixedPredictRng g pos coefs X ids M rta Q numDraws (some k) C long s' := by
  unfold mixedPredictRng
  rw [normal_draws_seeded g m numDraws pos.length k s s']

variable [DecidableEq R] [DecidableEq O]

/-- **C97**.  Whatever the generator draws, predicted long probabilities of a mixed logit model are positive, sum to
one per observation, and average the logit probabilities over draws of the random coefficients. -/
theorem mixed_predict_rng {M : Matrix R O ℝ} {f : R → O} (hM : Indicates M f) {Q : Matrix R (Fin m) ℝ}
    {q : R → Fin m} (hQ : Indicates Q q) (pos : List K) (hpos : pos ≠ []) (hm : 0 < m)
    (mean : K → ℝ) (sd : Fin pos.length → ℝ) (X : Matrix R K ℝ) (ids : R → ι) (rta : Matrix R A ℝ)
    (d : ℕ) (hd : 0 < d) (s : g.State) :
    ∃ (l : R → ℝ) (draws : Fin pos.length → Fin m → Fin d → ℝ),
      mixedPredictRng g pos (Sum.elim mean sd) X ids M rta Q (.int d) none none true s =
        .ok (.inl l, (normalsLoop g m d pos.length s).2) ∧
      (∀ j, draws j = normalStream g m d j s) ∧
      (∀ r, l r = average fun i => clippedLogit f (fun s => ∑ k, X s k *
        randomCoef mean sd pos.get draws (q s) i k) r) ∧
      (∀ r, 0 < l r) ∧ ∀ o ∈ Set.range f, ∑ r ∈ rowsOf f o, l r = 1 := by
  have : Nonempty (Fin d) := ⟨⟨0, hd⟩⟩
  set dl := (List.range pos.length).map fun i => normalStream g m d i s with hdl
  have hlen : pos.length = dl.length := by simp [hdl]
  have hn : 0 < pos.length := List.length_pos_iff.2 hpos
  have h0 : dl ≠ [] := by rw [← List.length_pos_iff, ← hlen]; exact hn
  obtain ⟨l, hl, h1, h2, h3⟩ := mixed_predict_long hM hQ pos mean sd X ids rta dl hlen h0
  have hdr : normalDraws g m (.int d) pos.length none s =
      .ok ⟨d, dl, (normalsLoop g m d pos.length s).2⟩ :=
    (normal_draws_iff g ..).2 ⟨hm, hd, hn, rfl, s, Or.inl ⟨rfl, rfl⟩, rfl, rfl⟩
  refine ⟨l, fun j => dl.get (j.cast hlen), ?_, ?_, h1, h2, h3⟩
  · unfold mixedPredictRng
    rw [hdr]
    change (do
      let p ← mixedPredict pos (Sum.elim mean sd) X ids M rta Q dl none true
      Except.ok (p, (normalsLoop g m d pos.length s).2)) = _
    rw [hl]
    rfl
  · intro j
    simp [hdl]

end Predict

/-! ## Bootstrap samples -/

section Sampler

variable {ι κ V : Type}

/-- **C97**.  With a seed, the bootstrap samples and the state the generator is left in do not depend on what was
drawn before. -/
theorem bootstrap_samples_seeded [LinearOrder ι] [LinearOrder κ] [One V] [DecidableEq V] {n : ℕ}
    (obs : Fin n → ι) (alt : Fin n → κ) (choice : Fin n → V) (numSamples : ℕ) (k : IntArg)
    (s s' : g.State) :
    samplesRng g obs alt choice numSamples (some k) s = samplesRng g obs alt choice numSamples (some k) s' := by
  cases k <;> rfl

theorem choiceLoop_keys (N : ℕ) (l : List (κ × List ι)) (s : g.State) :
    (choiceLoop g N l s).1.map Prod.fst = l.map Prod.fst := by
  induction l generalizing s with
  | nil => rfl
  | cons x l ih => obtain ⟨a, ids⟩ := x; simp [choiceLoop, ih]

theorem choiceLoop_valid (hg : ChoosesMembers g) (N : ℕ) (l : List (κ × List ι)) (s : g.State) :
    ∀ b ∈ l.zip (choiceLoop g N l s).1, b.1.1 = b.2.1 ∧ b.2.2.length = b.1.2.length * N ∧
      ∀ x ∈ b.2.2, x ∈ b.1.2 := by
  induction l generalizing s with
  | nil => simp [choiceLoop]
  | cons x l ih =>
    obtain ⟨a, ids⟩ := x
    intro b hb
    simp only [choiceLoop, List.zip_cons_cons, List.mem_cons] at hb
    rcases hb with rfl | hb
    · have := hg ι ids (ids.length * N) s (by
        by_cases h : ids = []
        · right; simp [h]
        · left; exact h)
      exact ⟨rfl, this.1, this.2⟩
    · exact ih _ b hb

private theorem eq_map_lookup (l : List (κ × List ι)) [DecidableEq κ] (h : (l.map Prod.fst).Nodup) :
    l = (l.map Prod.fst).map fun a => (a, (l.lookup a).getD []) := by
  rw [List.map_map]
  conv_lhs => rw [← List.map_id l]
  refine List.map_congr_left fun x hx => ?_
  rw [Function.comp_apply, lookup_of_mem_nodup h (show (x.1, x.2) ∈ l from hx)]
  rfl

private theorem mem_of_lookup [DecidableEq κ] {l : List (κ × List ι)} {a : κ} {b : List ι}
    (h : l.lookup a = some b) : (a, b) ∈ l := by
  induction l with
  | nil => simp at h
  | cons x l ih =>
    obtain ⟨c, d⟩ := x
    rw [List.lookup_cons] at h
    by_cases hac : a = c
    · subst hac; simp at h; subst h; exact List.mem_cons_self
    · have : (a == c) = false := by simpa using hac
      rw [this] at h
      exact List.mem_cons_of_mem _ (ih h)

private def pad (ids : List ι) (size : ℕ) : List ι :=
  match ids with
  | [] => []
  | x :: _ => List.replicate size x

private theorem pad_valid (ids : List ι) (size : ℕ) (h : ids ≠ [] ∨ size = 0) :
    (pad ids size).length = size ∧ ∀ x ∈ pad ids size, x ∈ ids := by
  cases ids with
  | nil => simp at h; simp [pad, h]
  | cons a l =>
    refine ⟨by simp [pad], fun x hx => ?_⟩
    rw [List.eq_of_mem_replicate hx]
    exact List.mem_cons_self

private theorem choiceState_cons (N : ℕ) (ids : List ι) (l : List (List ι)) (s : g.State) (j : ℕ) :
    choiceState g N (ids :: l) s (j + 1) = choiceState g N l (g.choice ids (ids.length * N) s).2 j := by
  induction j with
  | zero => rfl
  | succ j ih => rw [choiceState, ih]; rfl

private theorem choiceLoop_get (N : ℕ) (l : List (κ × List ι)) (s : g.State) :
    (∀ i, (l.zip (choiceLoop g N l s).1).flatMap (fun b => reshapeRow b.2.2 b.1.2.length i) =
      (List.range l.length).flatMap fun j => reshapeRow (g.choice ((l.map Prod.snd).getD j [])
        (((l.map Prod.snd).getD j []).length * N) (choiceState g N (l.map Prod.snd) s j)).1
        ((l.map Prod.snd).getD j []).length i) ∧
      (choiceLoop g N l s).2 = choiceState g N (l.map Prod.snd) s l.length := by
  induction l generalizing s with
  | nil => exact ⟨fun i => rfl, rfl⟩
  | cons x l ih =>
    obtain ⟨a, ids⟩ := x
    obtain ⟨h1, h2⟩ := ih (g.choice ids (ids.length * N) s).2
    refine ⟨fun i => ?_, ?_⟩
    · rw [List.length_cons, List.range_succ_eq_map, List.flatMap_cons, List.flatMap_map]
      simp only [choiceLoop, List.zip_cons_cons, List.flatMap_cons, h1, List.map_cons]
      congr 1
      refine congrArg (fun f => List.flatMap f _) ?_
      funext j
      rw [choiceState_cons]
      rfl
    · simp only [choiceLoop, h2, List.map_cons, List.length_cons]
      rw [choiceState_cons]

variable [LinearOrder ι] [LinearOrder κ] [One V] [DecidableEq V]

/-- The samples are those of the model with the generator as a parameter. -/
theorem bootstrap_samples_model (hg : ChoosesMembers g) {n : ℕ} (obs : Fin n → ι) (alt : Fin n → κ)
    (choice : Fin n → V) (numSamples : ℕ) (seed : Option IntArg) (s : g.State)
    {res : List (List ι) × g.State} (h : samplesRng g obs alt choice numSamples seed s = .ok res) :
    ∃ draw, ValidDraw draw ∧ crossSectionalSamples draw obs alt choice numSamples none = .ok res.1 := by
  classical
  unfold samplesRng at h
  cases hs : seedSampler g seed s with
  | error e => rw [hs] at h; cases h
  | ok s₀ =>
  rw [hs] at h
  injection h with h
  subst h
  set chosen := relateObsIdsToChosenAlts obs alt choice with hch
  set blocks := (choiceLoop g numSamples chosen s₀).1 with hbl
  have hkeys : (chosen.map Prod.fst).Nodup := by
    rw [hch]
    unfold relateObsIdsToChosenAlts
    rw [List.map_map]
    change (List.map (fun a => a) _).Nodup
    rw [List.map_id']
    exact (npSort_perm _).nodup_iff.2 (npUnique_nodup _)
  have hbk : blocks.map Prod.fst = chosen.map Prod.fst := choiceLoop_keys g numSamples chosen s₀
  have hzip : chosen.zip blocks = chosen.map fun c => (c, (c.1, (blocks.lookup c.1).getD [])) := by
    conv_lhs => rw [eq_map_lookup blocks (hbk ▸ hkeys), hbk, List.map_map]
    induction chosen with
    | nil => rfl
    | cons c l ih => simp [ih]
  have hval := choiceLoop_valid g hg numSamples chosen s₀
  rw [← hbl, hzip] at hval
  refine ⟨fun a ids size => if chosen.lookup a = some ids ∧ size = ids.length * numSamples
    then (blocks.lookup a).getD [] else pad ids size, ?_, ?_⟩
  · intro a ids size hne
    simp only
    split_ifs with hc
    · have hm : (a, ids) ∈ chosen := mem_of_lookup hc.1
      have := hval _ (List.mem_map.2 ⟨_, hm, rfl⟩)
      exact ⟨by rw [this.2.1, hc.2], this.2.2⟩
    · exact pad_valid ids size hne
  · unfold crossSectionalSamples
    rw [if_neg (by simp)]
    simp only [← hch, numObsChoosing, Except.ok.injEq]
    refine List.map_congr_left fun i _ => ?_
    rw [hzip, List.flatMap_map, List.flatMap_map, List.flatMap_def, List.flatMap_def]
    congr 1
    refine List.map_congr_left fun c hc => ?_
    have hl : chosen.lookup c.1 = some c.2 := lookup_of_mem_nodup hkeys (show (c.1, c.2) ∈ chosen from hc)
    simp [hl]

/-- **C97**.  Whatever the generator chooses, the samples are those of the model with the generator as a
parameter, so that the theorem on the shares of the alternatives applies: every bootstrap sample has as many
observations as the data, all of them in the data, with the same number of observations for each chosen
alternative. -/
theorem bootstrap_samples_rng (hg : ChoosesMembers g) {n : ℕ} (obs : Fin n → ι) (alt : Fin n → κ)
    (choice : Fin n → V) (hone : EachChoseOne obs alt choice) (numSamples : ℕ) (seed : Option IntArg)
    (s : g.State) {res : List (List ι) × g.State}
    (h : samplesRng g obs alt choice numSamples seed s = .ok res) :
    open Classical in
    res.1.length = numSamples ∧ ∀ smp ∈ res.1,
      smp.length = (Finset.univ.image obs).card ∧ (∀ o ∈ smp, ∃ r, obs r = o) ∧
      ∀ a, smp.countP (fun o => Chose obs alt choice o a) =
        ((Finset.univ.image obs).filter fun o => Chose obs alt choice o a).card := by
  classical
  obtain ⟨draw, hd, hr⟩ := bootstrap_samples_model g hg obs alt choice numSamples seed s h
  obtain ⟨smp, h1, h2⟩ := bootstrap_sample_shares obs alt choice hd hone numSamples (seed := none) (by simp)
  rw [hr] at h1
  injection h1 with h1
  subst h1
  exact h2

/-- **C97**.  The samples are successive draws: for the alternatives in ascending order, all samples' ids of an
alternative are one call of the generator on the ids of the observations that chose it, from the state left
by the previous call (the first from the seed's state, if there is a seed), and the `i`-th sample takes the
`i`-th run of each call's result. -/
theorem bootstrap_samples_stream {n : ℕ} (obs : Fin n → ι) (alt : Fin n → κ) (choice : Fin n → V) (N : ℕ)
    (seed : Option IntArg) (s : g.State) {res : List (List ι) × g.State}
    (h : samplesRng g obs alt choice N seed s = .ok res) :
    ∃ (s₀ : g.State) (l : List (List ι)),
      (seed = none ∧ s₀ = s ∨ ∃ k : ℤ, seed = some (.int k) ∧ g.seed k = .ok s₀) ∧
      l = (relateObsIdsToChosenAlts obs alt choice).map Prod.snd ∧
      (∀ i < N, res.1.getD i [] = (List.range l.length).flatMap fun j =>
        ((g.choice (l.getD j []) ((l.getD j []).length * N) (choiceState g N l s₀ j)).1.drop
          (i * (l.getD j []).length)).take (l.getD j []).length) ∧
      res.2 = choiceState g N l s₀ l.length := by
  unfold samplesRng at h
  cases hs : seedSampler g seed s with
  | error e => rw [hs] at h; cases h
  | ok s₀ =>
  rw [hs] at h
  injection h with h
  subst h
  refine ⟨s₀, _, ?_, rfl, ?_, ?_⟩
  · cases seed with
    | none => exact Or.inl ⟨rfl, by injection hs with hs; exact hs.symm⟩
    | some k =>
      cases k with
      | other => cases hs
      | int k => exact Or.inr ⟨k, rfl, hs⟩
  · intro i hi
    rw [List.getD_eq_getElem?_getD, List.getElem?_map, List.getElem?_range hi]
    simp only [Option.map_some, Option.getD_some]
    rw [(choiceLoop_get g N _ s₀).1 i, List.length_map]
    rfl
  · rw [(choiceLoop_get g N _ s₀).2, List.length_map]

/-- **C97**.  Samples are drawn unless the seed is not an integer (a `ValueError`) or NumPy refuses it. -/
theorem bootstrap_samples_iff {n : ℕ} (obs : Fin n → ι) (alt : Fin n → κ) (choice : Fin n → V)
    (numSamples : ℕ) (seed : Option IntArg) (s : g.State) :
    (∃ res, samplesRng g obs alt choice numSamples seed s = .ok res) ↔
      seed = none ∨ ∃ k s', seed = some (.int k) ∧ g.seed k = .ok s' := by
  have : (∃ res, samplesRng g obs alt choice numSamples seed s = .ok res) ↔
      ∃ s₀, seedSampler g seed s = .ok s₀ := by
    unfold samplesRng
    cases hs : seedSampler g seed s with
    | error e =>
      refine ⟨?_, ?_⟩
      · rintro ⟨_, h⟩; cases h
      · rintro ⟨_, h⟩; cases h
    | ok s₀ => exact ⟨fun _ => ⟨s₀, rfl⟩, fun _ => ⟨_, rfl⟩⟩
  rw [this]
  cases seed with
  | none => simp [seedSampler]
  | some k => cases k <;> simp [seedSampler]

/-- A seed that is not an integer is refused. -/
theorem bootstrap_samples_seed_refused {n : ℕ} (obs : Fin n → ι) (alt : Fin n → κ) (choice : Fin n → V)
    (numSamples : ℕ) (s : g.State) :
    samplesRng g obs alt choice numSamples (some .other) s = .error .valueError := rfl

end Sampler

/-! ## The hypotheses are met -/

section Example

/-- A toy generator: its state counts the calls since the last seed, and its draws depend on the state. -/
noncomputable def countingRng : Rng where
  State := ℕ
  seed k := if k < 0 then .error .valueError else .ok k.toNat
  normals _ _ s := (fun i j => (s + i + j : ℕ), s + 1)
  choice ids size s := (match ids with
    | [] => []
    | x :: l => (List.range size).map fun i => (x :: l).getD ((s + i) % (l.length + 1)) x, s + 1)

theorem countingRng_chooses : ChoosesMembers countingRng := by
  intro ι ids size (s : ℕ) h
  cases ids with
  | nil => simp at h; subst h; simp [countingRng]
  | cons x l =>
    refine ⟨by simp [countingRng], fun y hy => ?_⟩
    simp only [countingRng, List.mem_map] at hy
    obtain ⟨i, -, rfl⟩ := hy
    have hlt : (s + i) % (l.length + 1) < (x :: l).length := Nat.mod_lt _ (by simp)
    rw [List.getD_eq_getElem?_getD, List.getElem?_eq_getElem hlt]
    exact List.getElem_mem _

/-- Seeded draws: two variables, from the state of the seed. -/
example (s : ℕ) : ∃ l, normalDraws countingRng 1 (.int 2) 2 (some (.int 5)) s = .ok ⟨2, l, (7 : ℕ)⟩ ∧
    l = [fun i j => ((5 + i.1 + j.1 : ℕ) : ℝ), fun i j => ((6 + i.1 + j.1 : ℕ) : ℝ)] := by
  refine ⟨_, ?_, rfl⟩
  refine (normal_draws_iff countingRng ..).2 ?_
  exact ⟨by norm_num, by norm_num, by norm_num, rfl, (5 : ℕ),
    Or.inr ⟨5, by norm_num, rfl, by simp [countingRng]⟩, rfl, rfl⟩

/-- Without a seed the draws depend on what was drawn before. -/
example : normalDraws countingRng 1 (.int 1) 1 none (0 : ℕ) ≠
    normalDraws countingRng 1 (.int 1) 1 none (1 : ℕ) := by
  intro h
  have h0 : normalDraws countingRng 1 (.int 1) 1 none (0 : ℕ) =
      .ok ⟨1, [fun i j => ((0 + i + j : ℕ) : ℝ)], (1 : ℕ)⟩ := rfl
  rw [h0] at h
  have := ((normal_draws_iff countingRng ..).1 h.symm).2.2.2.2
  obtain ⟨s₀, (⟨-, rfl⟩ | ⟨_, _, h, -⟩), hl, -⟩ := this
  · have := List.head_eq_of_cons_eq hl
    have := congrFun (congrFun this 0) 0
    simp [normalStream, countingRng] at this
  · cases h

/-- Samples are drawn from the toy generator: three observations, two alternatives. -/
example (s : ℕ) : ∃ res, samplesRng countingRng ![(7 : ℤ), 7, 8, 8, 9, 9] ![(1 : ℤ), 2, 1, 2, 1, 2]
      ![(1 : ℤ), 0, 0, 1, 1, 0] 2 (some (.int 3)) s = .ok res ∧ res.1 = [[9, 7, 8], [9, 7, 8]] :=
  ⟨_, rfl, rfl⟩

end Example

end Pylogit
