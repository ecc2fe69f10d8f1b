import Verif.Props.Existence
import Verif.Props.WholeFitMixed
import Verif.Props.WholeFitTypes

/-!
# C126: with a ridge penalty there are estimates
-/

namespace Pylogit

open Spec Finset Matrix

noncomputable section

namespace Penalised

theorem parts {P : Type} [Fintype P] {n : ℕ} (e : P ≃ Fin n) {est : Option (List P) → Estimator P}
    {fisher : (P → ℝ) → Matrix P P ℝ} {ρ : ℝ} (h : ∀ con, RidgeAttained (est con).logLik [] ρ)
    (ps : Option (List (Fin n))) : ∃ x, ∀ y, ((LogitObject.ofParts e est fisher).est ps).logLik y ≤
      ((LogitObject.ofParts e est fisher).est ps).logLik x := by
  obtain ⟨⟨x, -, hx⟩, -⟩ := h (ps.map fun l => l.map e.symm) 0
  refine ⟨x ∘ e.symm, fun y => ?_⟩
  have : (x ∘ e.symm) ∘ e = x := by funext i; simp
  change (est _).logLik (y ∘ e) ≤ (est _).logLik ((x ∘ e.symm) ∘ e)
  rw [this]
  exact hx _ (by simp)

theorem free {P : Type} [Fintype P] {ρ : ℝ} {est : Option (List P) → Estimator P}
    (h : ∀ con, RidgeAttained (est con).logLik (con.getD []) ρ) (hcon : ∀ con, (est con).logLik = (est none).logLik)
    (con : Option (List P)) : RidgeAttained (est con).logLik [] ρ := by
  rw [hcon con]
  exact h none

theorem attained {m : ChoiceModel ℝ} {alts : List ℝ} (ha : AltsOf m.data m.args.altIdCol alts)
    (h2 : m.cls = .asym → 2 ≤ alts.length) (hclog : m.cls ≠ .cloglog)
    {chosen : ℝ → Fin m.data.numRows} (hc : OneChoicePerObs m.data m.args.obsIdCol m.args.choiceCol chosen)
    {hrows : 0 < m.data.numRows} {ρ : ℝ} (hρ : 0 < ρ) {obj : LogitObject}
    (h : logitObject m hrows (some ρ) = .ok obj) (ps : Option (List (Fin obj.n))) :
    ∃ x, ∀ y, (obj.est ps).logLik y ≤ (obj.est ps).logLik x := by
  obtain ⟨f, c, hM, hone, -⟩ := table_choice hc
  unfold logitObject at h
  split at h
  · cases h
    obtain ⟨⟨x, -, hx⟩, -⟩ := mnl_ridge_attained (d := modelFitData m) (weights := none) hM hone (fun w e => by cases e)
      hρ none 0
    exact ⟨x, fun y => hx y (by simp)⟩
  · cases h
  · cases h
  · cases h
  all_goals
    rename_i n hcls hA
    simp only [bind, Except.bind] at h
    split at h
    · cases h
    rename_i ref href
  · exact absurd hcls hclog
  all_goals
    have hl : alts.length = n + 1 := by rw [← altsOf_eq ha]; exact hA
    obtain ⟨alt, hind, -⟩ := table_alts ha hA hl
  · cases h
    cases ref with
    | none =>
      exact parts _ (free (fun con => scobit_plain_ridge_attained (d := altsFitData m hA) (weights := none) hM hind hone
        (fun w e => by cases e) hρ 0 con) fun con => rfl) ps
    | some z =>
      exact parts _ (free (fun con => scobit_ridge_attained (d := altsFitData m hA) (weights := none) hM hind hone
        (fun w e => by cases e) hρ z con) fun con => rfl) ps
  · cases h
    cases ref with
    | none =>
      exact parts _ (free (fun con => uneven_plain_ridge_attained (d := altsFitData m hA) (weights := none) hM hone
        (fun w e => by cases e) hρ 0 con) fun con => rfl) ps
    | some z =>
      exact parts _ (free (fun con => uneven_ridge_attained (d := altsFitData m hA) (weights := none) hM hone
        (fun w e => by cases e) hρ z con) fun con => rfl) ps
  · split at h
    · cases h
    rename_i sref _
    have hn : 0 < n := by have := h2 hcls; omega
    cases h
    cases ref with
    | none =>
      exact parts _ (free (fun con => asym_plain_ridge_attained (d := altsFitData m hA) (weights := none) hM hind hone
        (fun w e => by cases e) hρ hn sref 0 con) fun con => rfl) ps
    | some z =>
      exact parts _ (free (fun con => asym_ridge_attained (d := altsFitData m hA) (weights := none) hM hind hone
        (fun w e => by cases e) hρ hn sref z con) fun con => rfl) ps

theorem returns {m : ChoiceModel ℝ} {alts : List ℝ} (ha : AltsOf m.data m.args.altIdCol alts)
    (h2 : m.cls = .asym → 2 ≤ alts.length) (hclog : m.cls ≠ .cloglog)
    {chosen : ℝ → Fin m.data.numRows} (hc : OneChoicePerObs m.data m.args.obsIdCol m.args.choiceCol chosen)
    {solver : Solver} (hsol : FindsMinima solver) {ridge : Option ℝ} (hρ : 0 < ridge.getD 0) (hrows : 0 < m.data.numRows)
    (obj : LogitObject) (h : logitObject m hrows ridge = .ok obj) (ps : Option (List (Fin obj.n))) (x : Fin obj.n → ℝ) :
    ∃ r, solver obj.n (obj.est ps).negLLAndGrad x (obj.est ps).negHessian = .ok r := by
  cases ridge with
  | none => simp at hρ
  | some ρ =>
    obtain ⟨z, hz⟩ := attained ha h2 hclog hc hρ h ps
    exact hsol _ _ _ _ ⟨z, fun y => by
      rw [constrained_gradient_fst, constrained_gradient_fst]; exact neg_le_neg (hz y)⟩

end Penalised

open Penalised in
/-- **C126** (penalised fits). With a positive ridge penalty and an optimiser that returns whenever its objective has a
minimum, a fit of a multinomial, scobit, uneven or asymmetric logit model gets to its results whatever the data - also
data that the variables separate, and columns that are collinear: exactly when its arguments are in order. Its results
are stored without an exception. -/
theorem penalised_fit_accepts {env : Env ℝ} {ty : String} {df : Frame ℝ} {a : ModelArgs ℝ} {m : ChoiceModel ℝ}
    (hm : createChoiceModel env ty df a = .ok m) (hn : m.cls ≠ .nested) (hx : m.cls ≠ .mixed)
    (hclog : m.cls ≠ .cloglog) {s : List (String × SpecVal ℝ)}
    (hspec : m.args.specification = encodeAll s) (hkeys : (s.map Prod.fst).Nodup)
    (hnm : ∀ ns, m.args.names = some ns → (ns.map Prod.fst).Nodup)
    {alts : List ℝ} (ha : AltsOf m.data m.args.altIdCol alts) (h2 : m.cls = .asym → 2 ≤ alts.length)
    {chosen : ℝ → Fin m.data.numRows} (hc : OneChoicePerObs m.data m.args.obsIdCol m.args.choiceCol chosen)
    {solver : Solver} (hsol : FindsMinima solver) (args : FitArgs) (hρ : 0 < args.ridge.getD 0) :
    let d : Dims := ⟨alts.length, (specColumns alts s).length, 0, 0⟩
    let k := totalParams m.cls d (m.args.interceptRefPos != .none)
    ((∃ r, logitFit solver m args = .ok r) ↔
      (∃ x, StartsFrom m.cls d args.init x ∧ x.length = k) ∧
      (m.data.colList m.args.obsIdCol).Pairwise (· ≤ ·) ∧ 0 < m.data.numRows ∧
      (m.cls ≠ .mnl → m.args.interceptRefPos = .none ∨
        ∃ z : ℤ, m.args.interceptRefPos = .int z ∧ 0 ≤ z ∧ z < alts.length) ∧
      (m.cls = .asym → ∃ z : ℤ, m.args.shapeRefPos = .int z ∧ 0 ≤ z ∧ z < alts.length) ∧
      ∀ z ∈ args.constrained.getD [], ∃ i, PosIs k z i) ∧
    ∀ r, logitFit solver m args = .ok r → args.justPoint = false → ∀ label sf before,
      (fitCall sf (logitFitCall solver m args) (fitCalls sf before (freshFit label m))).2 = none := by
  intro d k
  refine ⟨logit_accepts_of hm hn hx hspec ha h2 hc args (returns ha h2 hclog hc hsol hρ), ?_⟩
  intro r hr hpoint label sf before
  obtain ⟨h1, h3⟩ := logit_fit_stores hm hspec hkeys hnm ha h2 hc label sf before args hpoint hr
  exact h1.2 (h3 hρ)

open Penalised in
/-- **C126** (penalised fits of mixed logit models). With a positive ridge penalty and an optimiser that returns whenever
its objective has a minimum, a fit of a mixed logit model gets to its results whatever the data and the draws: exactly
when its arguments are in order. (Whether they are stored is another matter, `mixed_fit_stores`.) -/
theorem penalised_mixed_fit_accepts (g : Rng) {env : Env ℝ} {df : Frame ℝ} {a : ModelArgs ℝ} {m : ChoiceModel ℝ}
    (hm : createChoiceModel env "Mixed Logit" df a = .ok m) {vars : List String} (hvars : a.mixingVars = some vars)
    {s : List (String × SpecVal ℝ)} (hspec : m.args.specification = encodeAll s) (hkeys : (s.map Prod.fst).Nodup)
    (hnm : ∀ ns, m.args.names = some ns → (ns.map Prod.fst).Nodup)
    {alts : List ℝ} (ha : AltsOf m.data m.args.altIdCol alts)
    {chosen : ℝ → Fin m.data.numRows} (hc : OneChoicePerObs m.data m.args.obsIdCol m.args.choiceCol chosen)
    {col : ℕ → ℕ} (hname : ∀ j (h : j < vars.length), m.indVarNames[col j]? = some (.str vars[j]) ∧
      ∀ i < col j, m.indVarNames[i]? ≠ some (.str vars[j]))
    {solver : Solver} (hsol : FindsMinima solver) (args : MixedFitArgs) (st : g.State) (hρ : 0 < args.ridge.getD 0) :
    (∃ r, mixedFit g solver m args st = .ok r) ↔
      (∃ x : List ℝ, args.init = ⟨some x, none, none, none⟩ ∧
        x.length = (specColumns alts s).length + vars.length) ∧
      vars ≠ [] ∧ (∃ d : ℕ, 0 < d ∧ args.numDraws = .int d) ∧ (∃ s₀, DrawsFrom g args.seed st s₀) ∧
      (∃ mixCol, a.mixingIdCol = some mixCol ∧ mixCol ∈ m.data.columns) ∧
      (m.data.colList m.args.obsIdCol).Pairwise (· ≤ ·) ∧ 0 < m.data.numRows ∧
      ∀ z ∈ args.constrained.getD [], ∃ i, PosIs ((specColumns alts s).length + vars.length) z i := by
  refine mixed_accepts_of g hm hvars hspec hkeys hnm ha hname args st fun hrows X ps x hd => ?_
  cases hr : args.ridge with
  | none => simp [hr] at hρ
  | some ρ =>
    rw [hr] at hρ
    obtain ⟨f, c, hM, hone, -⟩ := table_choice hc
    obtain ⟨f', hf', -⟩ := m.data.rowsToObs_indicates X.mixCol
    have : Nonempty (Fin m.data.numRows) := ⟨⟨0, hrows⟩⟩
    have : Nonempty (Fin X.numDraws) := ⟨⟨0, hd⟩⟩
    obtain ⟨z, hz⟩ := parts (twoParts m.design.length X.numMixed) (fisher := fun _ => -1) (free (fun con =>
      mixed_ridge_attained (weights := none) hM hf' hone (fun w e => by cases e) X.values hρ con) fun con => rfl) ps
    refine hsol _ _ _ _ ⟨z, fun y => ?_⟩
    have h1 := constrained_gradient_fst ((mixedObject m hrows X (some ρ)).est ps) z
    have h2 := constrained_gradient_fst ((mixedObject m hrows X (some ρ)).est ps) y
    exact h1.trans_le ((neg_le_neg (hz y)).trans h2.ge)

end

end Pylogit
