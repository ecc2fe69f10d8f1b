import Verif.Props.MixedFit
import Verif.Props.NestedFit

/-!
# The mixed logit model on converted wide data, and harmless key orders (C107)
-/

open Matrix

namespace Pylogit

open Spec WideFit

noncomputable section

/-! ## Helper lemmas -/

namespace WideFit

lemma prod_get {α : Type} (P : List α) {n : ℕ} (hn : n = P.length) (F : α → ℝ) :
    ∏ r : Fin n, F (P.get (r.cast hn)) = (P.map F).prod := by
  subst hn
  rw [← List.prod_ofFn]
  congr 1
  exact List.ext_getElem (by simp) fun i h1 h2 => by simp

lemma pairs_prod (d : WideSpec) (w : Frame ℝ) (F : Fin w.numRows × ℝ → ℝ) :
    ((pairs d w).map F).prod = ∏ i, ((d.choiceSet w i).map fun a => F (i, a)).prod := by
  rw [pairs, List.map_flatMap, List.flatMap_def, List.prod_flatten, List.map_map, ← List.prod_ofFn,
    List.ofFn_eq_map]
  congr 1
  refine List.map_congr_left fun i _ => ?_
  simp only [Function.comp_apply, List.map_map]
  rfl

lemma prod_chosen {l : List ℝ} (hn : l.Nodup) {c : ℝ} (hc : c ∈ l) (F : ℝ → ℝ) :
    (l.map fun a => if c = a then F a else 1).prod = F c := by
  induction l with
  | nil => cases hc
  | cons a l ih =>
    rw [List.nodup_cons] at hn
    rw [List.map_cons, List.prod_cons]
    rcases List.mem_cons.1 hc with rfl | hc
    · have : (l.map fun b => if c = b then F b else 1).prod = 1 := by
        refine List.prod_eq_one fun x hx => ?_
        obtain ⟨b, hb, rfl⟩ := List.mem_map.1 hx
        have : c ≠ b := fun e => hn.1 (e ▸ hb)
        exact if_neg this
      rw [this]
      simp
    · have hne : c ≠ a := fun e => hn.1 (e ▸ hc)
      rw [ih hn.2 hc, if_neg hne, one_mul]

/-- The probability of a row of the long table is the logit probability of its pair in the wide table. -/
lemma pairs_clipped {d : WideSpec} {w : Frame ℝ} (h : Accepted d w) {n : ℕ} (hN : n = (pairs d w).length)
    (u : Fin w.numRows → ℝ → ℝ) (r : Fin n) :
    clippedLogit (fun r : Fin n => w.val d.obsCol ((pairs d w).get (r.cast hN)).1)
        (fun r => u ((pairs d w).get (r.cast hN)).1 ((pairs d w).get (r.cast hN)).2) r =
      Real.exp (clip700 (u ((pairs d w).get (r.cast hN)).1 ((pairs d w).get (r.cast hN)).2)) /
        ((d.choiceSet w ((pairs d w).get (r.cast hN)).1).map fun a =>
          Real.exp (clip700 (u ((pairs d w).get (r.cast hN)).1 a))).sum := by
  simp only [clippedLogit, logitProb]
  congr 1
  unfold rowsOf
  rw [Finset.sum_filter]
  rw [sum_get (pairs d w) hN fun p => if w.val d.obsCol p.1 = w.val d.obsCol
    ((pairs d w).get (r.cast hN)).1 then Real.exp (clip700 (u p.1 p.2)) else 0]
  rw [pairs_sum, Finset.sum_eq_single ((pairs d w).get (r.cast hN)).1]
  · simp
  · intro j _ hj
    have : w.val d.obsCol j ≠ w.val d.obsCol ((pairs d w).get (r.cast hN)).1 := fun e => hj (h.ids e)
    simp only [if_neg this]
    simp
  · simp

lemma firstAppearance_replicate (k : ℕ) (x : ℝ) (l : List ℝ) :
    (firstAppearance (List.replicate k x ++ l)).filter (· ≠ x) = (firstAppearance l).filter (· ≠ x) := by
  induction k with
  | zero => rfl
  | succ k ih =>
    rw [List.replicate_succ, List.cons_append, firstAppearance, List.filter_cons_of_neg (by simp),
      List.filter_filter]
    simpa using ih

lemma firstAppearance_blocks {α : Type} (f : α → ℝ) (n : α → ℕ) (hn : ∀ i, 0 < n i) (l : List α) :
    firstAppearance (l.flatMap fun i => List.replicate (n i) (f i)) = firstAppearance (l.map f) := by
  induction l with
  | nil => rfl
  | cons i l ih =>
    obtain ⟨k, hk⟩ := Nat.exists_eq_succ_of_ne_zero (hn i).ne'
    rw [List.flatMap_cons, hk, List.replicate_succ, List.cons_append, List.map_cons, firstAppearance,
      firstAppearance, firstAppearance_replicate, ih]

/-- The people of the long table are those of the wide table, in the same order. -/
lemma pairs_people {d : WideSpec} {w t : Frame ℝ} (h : Accepted d w) {c : String}
    {hN : t.numRows = (pairs d w).length}
    (hv : ∀ r, t.val c r = w.val c ((pairs d w).get (r.cast hN)).1) :
    firstAppearance (t.colList c) = firstAppearance (w.colList c) := by
  have h1 : t.colList c = (List.finRange w.numRows).flatMap fun i =>
      List.replicate (d.choiceSet w i).length (w.val c i) := by
    have : t.colList c = (pairs d w).map fun p => w.val c p.1 :=
      List.ext_getElem (by simp [Frame.colList, hN]) fun i h1 h2 => by
        simp only [Frame.colList, List.getElem_ofFn, List.getElem_map]
        exact hv _
    rw [this, pairs, List.map_flatMap]
    refine List.flatMap_congr fun i _ => ?_
    rw [List.map_map]
    exact List.map_const' (l := d.choiceSet w i) (b := w.val c i)
  rw [h1, firstAppearance_blocks _ _ fun i => List.length_pos_of_mem (h.chosen i), Frame.colList,
    List.ofFn_eq_map]

end WideFit

/-! ## C107: mixed logit, wide table -/

/-- **C107** (mixed logit, wide table). Convert a wide table with 0/1 availabilities and an availability dictionary in
ascending key order, and build a mixed logit model on the returned table whose mixing id is the observation id or an
individual variable.  At a vector with one mean per described column followed by one standard deviation per mixing
variable, a fit computes the simulated log-likelihood of the wide table, minus the ridge penalty: over the people of
the wide table, the logarithm of the average over the draws of the product over the person's observations of the
(clipped) logit probability of the choice among the available alternatives, for utilities computed from the wide
columns with the person's coefficients. -/
theorem mixed_fit_maximises_wide_logLik_partial (g : Rng) {env : Env ℝ} {d : WideSpec} {w long : Frame ℝ}
    {isNull : ℝ → Bool} (hs : SortedKeys d.avail) (h01 : ZeroOneAvail w d.avail)
    (hconv : convertWideToLongTable isNull w d.indVars d.altSpecific d.avail d.obsCol d.choiceCol d.altName =
      .ok long)
    {a : ModelArgs ℝ} {m : ChoiceModel ℝ} (hm : createChoiceModel env "Mixed Logit" long a = .ok m)
    (hobs : a.obsIdCol = d.obsCol)
    (halt : a.altIdCol = d.altName.getD "alt_id") (hch : a.choiceCol = d.choiceCol)
    {mixCol : String} (hmix : a.mixingIdCol = some mixCol) (hcol : mixCol = d.obsCol ∨ mixCol ∈ d.indVars)
    {vars : List String} (hvars : a.mixingVars = some vars) (hne : vars ≠ [])
    {s : List (String × SpecVal ℝ)} (hspec : a.specification = encodeAll s)
    (hkeys : (s.map Prod.fst).Nodup) (hnm : ∀ ns, m.args.names = some ns → (ns.map Prod.fst).Nodup)
    (hrows : 0 < w.numRows) {col : Fin vars.length → ℕ}
    (hname : ∀ j, m.indVarNames[col j]? = some (.str vars[j]) ∧
      ∀ i < col j, m.indVarNames[i]? ≠ some (.str vars[j]))
    {n : ℕ} (hn : 0 < n) {seed : Option IntArg} {st s₀ : g.State}
    (hseed : seed = none ∧ s₀ = st ∨ ∃ k : ℤ, 0 < k ∧ seed = some (.int k) ∧ g.seed k = .ok s₀)
    {mean : List ℝ} (hmean : mean.length = (specColumns (d.avail.map Prod.fst) s).length)
    (sd : Fin vars.length → ℝ) (ridge : Option ℝ) :
    fitMixedLogLik g m (.int n) seed ridge (mean ++ List.ofFn sd) st =
      if (w.colList d.obsCol).Pairwise (· ≤ ·) then
        .ok (d.simLogLik w mixCol (firstAppearance (w.colList mixCol)) (fun (t : Fin n) i b =>
            clip700 (d.index w (specColumns (d.avail.map Prod.fst) s)
              (personCoefs mean sd col fun j =>
                personDraw g (firstAppearance (w.colList mixCol)) n s₀ j (w.val mixCol i) t) i b))
          - ridge.getD 0 * ((mean ++ List.ofFn sd).map fun x => x ^ 2).sum)
      else .error .valueError := by
  obtain ⟨hacc, hsp, ha, hasc, hN, v1, v2, v3, hidx, hind⟩ := model_rows hs h01 hconv hm hobs halt hch hspec
  obtain ⟨hmc, v4⟩ := hind mixCol hcol
  have hr0 : 0 < m.data.numRows := by
    rw [hN]
    exact List.length_pos_of_mem (mem_pairs (p := (⟨0, hrows⟩, _)).2 (hacc.chosen ⟨0, hrows⟩))
  rw [mixed_fit_maximises_table_logLik g hm hmix hmc hvars hne hsp hkeys hnm ha hr0
    (fun r => by rw [v3]; split_ifs <;> simp) hname hn hseed hmean sd ridge]
  simp only [hasc]
  refine if_congr Iff.rfl (congrArg Except.ok ?_) rfl
  rw [pairs_people hacc v4]
  congr 1
  unfold tableSimLogLik WideSpec.simLogLik
  congr 1
  refine List.map_congr_left fun who _ => ?_
  congr 2
  funext t
  set u : Fin w.numRows → ℝ → ℝ := fun i b => d.index w (specColumns (d.avail.map Prod.fst) s)
    (personCoefs mean sd col fun j =>
      personDraw g (firstAppearance (w.colList mixCol)) n s₀ j (w.val mixCol i) t) i b with hu
  have f1 : m.data.val m.args.obsIdCol = fun r => w.val d.obsCol ((pairs d w).get (r.cast hN)).1 := funext v2
  have f2 : (mixedUtility m.data m.args.altIdCol mixCol (specColumns (d.avail.map Prod.fst) s) mean sd col
      fun j who => personDraw g (firstAppearance (w.colList mixCol)) n s₀ j who t) =
      fun r => u ((pairs d w).get (r.cast hN)).1 ((pairs d w).get (r.cast hN)).2 := by
    funext r
    rw [mixedUtility, hidx, v4]
  rw [Finset.prod_filter, Finset.prod_filter]
  let F : Fin w.numRows × ℝ → ℝ := fun p => if w.val d.choiceCol p.1 = p.2 then
    (if w.val mixCol p.1 = who then Real.exp (clip700 (u p.1 p.2)) /
      ((d.choiceSet w p.1).map fun a => Real.exp (clip700 (u p.1 a))).sum else 1) else 1
  have hF : ∀ r : Fin m.data.numRows, (if m.data.val mixCol r = who ∧ m.data.val m.args.choiceCol r = 1 then
      clippedLogit (m.data.val m.args.obsIdCol) (mixedUtility m.data m.args.altIdCol mixCol
        (specColumns (d.avail.map Prod.fst) s) mean sd col fun j who =>
          personDraw g (firstAppearance (w.colList mixCol)) n s₀ j who t) r else 1) =
      F ((pairs d w).get (r.cast hN)) := by
    intro r
    rw [f1, f2, pairs_clipped hacc hN, v3, v4]
    simp only [F]
    split_ifs <;> simp_all
  rw [Finset.prod_congr rfl fun r _ => hF r, prod_get (pairs d w) hN F, pairs_prod]
  exact Finset.prod_congr rfl fun i _ => prod_chosen (choiceSet_nodup hacc.sorted i) (hacc.chosen i)
    fun b => if w.val mixCol i = who then Real.exp (clip700 (u i b)) /
      ((d.choiceSet w i).map fun a => Real.exp (clip700 (u i a))).sum else 1

/-! ## Any harmless key order -/

/-- **C107** (nested logit, wide table, any harmless key order). The same as
`nested_fit_maximises_wide_logLik_partial` when the availability dictionary is in any order in which every row of the
wide table has the same availability cells as in ascending key order (`s` is the sorted dictionary). -/
theorem nested_fit_maximises_wide_logLik_any_order_partial {env : Env ℝ} {ty : String} {d : WideSpec}
    {w long : Frame ℝ} {isNull : ℝ → Bool} {s : List (ℝ × String)} (hperm : s.Perm d.avail) (hs : SortedKeys s)
    (h01 : ZeroOneAvail w d.avail)
    (hcells : ∀ i, (d.avail.map fun ac => w.val ac.2 i) = s.map fun ac => w.val ac.2 i)
    (hconv : convertWideToLongTable isNull w d.indVars d.altSpecific d.avail d.obsCol d.choiceCol d.altName =
      .ok long)
    {a : ModelArgs ℝ} {m : ChoiceModel ℝ} (hm : createChoiceModel env ty long a = .ok m)
    (hcls : m.cls = .nested) (hobs : a.obsIdCol = d.obsCol)
    (halt : a.altIdCol = d.altName.getD "alt_id") (hch : a.choiceCol = d.choiceCol)
    {sp : List (String × SpecVal ℝ)} (hspec : a.specification = encodeAll sp)
    {ns : List (String × List ℝ)} (hns : a.nestSpec = some (encodeNests ns)) (hk : (ns.map Prod.fst).Nodup)
    {x : List ℝ} (hx : x.length = ns.length + (specColumns (s.map Prod.fst) sp).length) :
    fitNestedLogLik m ns x =
      if (w.colList d.obsCol).Pairwise (· ≤ ·) then
        .ok (d.nestedLogLik w ns (fun n => 1 / (1 + Real.exp (-(x.getD n 0)))) fun i b =>
          d.index w (specColumns (s.map Prod.fst) sp) (x.drop ns.length) i b)
      else .error .valueError := by
  have hconv' := convert_any_order hperm hs h01 hcells hconv
  have key := nested_fit_maximises_wide_logLik_partial (d := { d with avail := s }) hs
    (fun ac hac i => h01 ac (hperm.mem_iff.1 hac) i) hconv' hm hcls hobs halt hch hspec hns hk hx
  rw [key]
  refine if_congr Iff.rfl (congrArg Except.ok ?_) rfl
  have hset : ∀ i, ({ d with avail := s } : WideSpec).choiceSet w i |>.Perm (d.choiceSet w i) :=
    fun i => (hperm.filter _).map _
  unfold WideSpec.nestedLogLik
  refine Finset.sum_congr rfl fun i _ => congrArg Real.log ?_
  have hsum : ∀ lam u n, ({ d with avail := s } : WideSpec).nestSum w ns lam u i n = d.nestSum w ns lam u i n :=
    fun lam u n => (((hset i).filter _).map _).sum_eq
  unfold WideSpec.nestedProb
  simp only [hsum, (hset i).mem_iff]
  rfl

/-- **C107** (mixed logit, wide table, any harmless key order). The same as `mixed_fit_maximises_wide_logLik_partial`
when the availability dictionary is in any order in which every row of the wide table has the same availability cells
as in ascending key order (`s` is the sorted dictionary). -/
theorem mixed_fit_maximises_wide_logLik_any_order_partial (g : Rng) {env : Env ℝ} {d : WideSpec} {w long : Frame ℝ}
    {isNull : ℝ → Bool} {s : List (ℝ × String)} (hperm : s.Perm d.avail) (hs : SortedKeys s)
    (h01 : ZeroOneAvail w d.avail)
    (hcells : ∀ i, (d.avail.map fun ac => w.val ac.2 i) = s.map fun ac => w.val ac.2 i)
    (hconv : convertWideToLongTable isNull w d.indVars d.altSpecific d.avail d.obsCol d.choiceCol d.altName =
      .ok long)
    {a : ModelArgs ℝ} {m : ChoiceModel ℝ} (hm : createChoiceModel env "Mixed Logit" long a = .ok m)
    (hobs : a.obsIdCol = d.obsCol)
    (halt : a.altIdCol = d.altName.getD "alt_id") (hch : a.choiceCol = d.choiceCol)
    {mixCol : String} (hmix : a.mixingIdCol = some mixCol) (hcol : mixCol = d.obsCol ∨ mixCol ∈ d.indVars)
    {vars : List String} (hvars : a.mixingVars = some vars) (hne : vars ≠ [])
    {sp : List (String × SpecVal ℝ)} (hspec : a.specification = encodeAll sp)
    (hkeys : (sp.map Prod.fst).Nodup) (hnm : ∀ ns, m.args.names = some ns → (ns.map Prod.fst).Nodup)
    (hrows : 0 < w.numRows) {col : Fin vars.length → ℕ}
    (hname : ∀ j, m.indVarNames[col j]? = some (.str vars[j]) ∧
      ∀ i < col j, m.indVarNames[i]? ≠ some (.str vars[j]))
    {n : ℕ} (hn : 0 < n) {seed : Option IntArg} {st s₀ : g.State}
    (hseed : seed = none ∧ s₀ = st ∨ ∃ k : ℤ, 0 < k ∧ seed = some (.int k) ∧ g.seed k = .ok s₀)
    {mean : List ℝ} (hmean : mean.length = (specColumns (s.map Prod.fst) sp).length)
    (sd : Fin vars.length → ℝ) (ridge : Option ℝ) :
    fitMixedLogLik g m (.int n) seed ridge (mean ++ List.ofFn sd) st =
      if (w.colList d.obsCol).Pairwise (· ≤ ·) then
        .ok (d.simLogLik w mixCol (firstAppearance (w.colList mixCol)) (fun (t : Fin n) i b =>
            clip700 (d.index w (specColumns (s.map Prod.fst) sp)
              (personCoefs mean sd col fun j =>
                personDraw g (firstAppearance (w.colList mixCol)) n s₀ j (w.val mixCol i) t) i b))
          - ridge.getD 0 * ((mean ++ List.ofFn sd).map fun x => x ^ 2).sum)
      else .error .valueError := by
  have hconv' := convert_any_order hperm hs h01 hcells hconv
  have key := mixed_fit_maximises_wide_logLik_partial g (d := { d with avail := s }) hs
    (fun ac hac i => h01 ac (hperm.mem_iff.1 hac) i) hconv' hm hobs halt hch hmix hcol hvars hne hspec hkeys hnm
    hrows hname hn hseed hmean sd ridge
  rw [key]
  refine if_congr Iff.rfl (congrArg Except.ok (congrArg (· - _) ?_)) rfl
  unfold WideSpec.simLogLik
  congr 1
  refine List.map_congr_left fun who _ => ?_
  congr 2
  funext t
  refine Finset.prod_congr rfl fun i _ => ?_
  congr 1
  exact (((hperm.filter _).map _).map _).sum_eq

/-! ## A concrete table -/

/-- Three observations of two people; alternative 2 is not available to the first observation. -/
def exWidePanel : Frame ℝ where
  columns := ["id", "person", "choice", "av1", "av2", "t1", "t2"]
  numRows := 3
  val := fun c =>
    if c = "id" then ![10, 20, 30]
    else if c = "person" then ![7, 7, 8]
    else if c = "choice" then ![1, 2, 1]
    else if c = "av2" then ![0, 1, 1]
    else if c = "t1" then ![4, 5, 6]
    else if c = "t2" then ![7, 8, 9]
    else ![1, 1, 1]

/-- Its description. -/
def exPanelSpec : WideSpec where
  indVars := ["person"]
  altSpecific := [("t", [(1, "t1"), (2, "t2")])]
  avail := [(1, "av1"), (2, "av2")]
  obsCol := "id"
  choiceCol := "choice"
  altName := none

/-- A mixed logit model in which the coefficient of `t` varies between people. -/
def exPanelArgs : ModelArgs ℝ :=
  { altIdCol := "alt_id", obsIdCol := "id", choiceCol := "choice"
    specification := encodeAll [("t", SpecVal.allSame)]
    names := none, interceptRefPos := .none, shapeRefPos := .none, interceptNames := none
    shapeNames := none, nestSpec := none, mixingIdCol := some "person", mixingVars := some ["t"] }

private lemma exPanel_choices : npSort (npUnique (exWidePanel.colList "choice")) = [1, 2] := by
  refine altsOf_eq ⟨by norm_num, fun a => ?_⟩
  simp only [List.mem_cons, List.not_mem_nil, or_false]
  constructor
  · rintro (rfl | rfl)
    · exact ⟨(0 : Fin 3), rfl⟩
    · exact ⟨(1 : Fin 3), rfl⟩
  · rintro ⟨r, rfl⟩
    change Fin 3 at r
    fin_cases r <;> simp [exWidePanel]

private lemma exPanel_accepts :
    convertWideToLongTable (fun _ => false) exWidePanel ["person"] [("t", [(1, "t1"), (2, "t2")])]
        [(1, "av1"), (2, "av2")] "id" "choice" none =
      .ok (longFrame ["id", "alt_id", "choice", "person", "t"]
        (wideGridRows exWidePanel ["person"] [("t", [(1, "t1"), (2, "t2")])] [(1, "av1"), (2, "av2")] "id"
          "choice")) := by
  have hc : ∀ x : ℝ, x = 1 ∨ x = 2 → ∃ i, exWidePanel.val "choice" i = x := by
    rintro x (rfl | rfl)
    · exact ⟨(0 : Fin 3), rfl⟩
    · exact ⟨(1 : Fin 3), rfl⟩
  have := convertWideToLong_accepts (isNull := fun _ : ℝ => false) (w := exWidePanel) (indVars := ["person"])
    (altSpecific := [("t", [(1, "t1"), (2, "t2")])]) (avail := [(1, "av1"), (2, "av2")]) (obsCol := "id")
    (choiceCol := "choice") (by simp [exWidePanel]) (by simp [exWidePanel])
    (by simp only [forall_eq, List.mem_cons, List.not_mem_nil, or_false]
        rintro ac (rfl | rfl) <;> simp [exWidePanel]) (by simp [exWidePanel])
    (by
      intro i j hij
      change Fin 3 at i j
      fin_cases i <;> fin_cases j <;> simp [exWidePanel] at hij ⊢)
    (by simp) (by simp; exact ⟨hc _ (by simp), hc _ (by simp)⟩)
    (by simp only [forall_eq, List.mem_cons, List.not_mem_nil, or_false]
        rintro ac (rfl | rfl) <;> exact hc _ (by simp))
    (by
      intro i
      have hk : ([((1 : ℝ), "av1"), (2, "av2")].map Prod.fst).Nodup := by norm_num
      change Fin 3 at i
      fin_cases i
      · exact ⟨"av1", lookup_of_mem_nodup hk (show ((1 : ℝ), "av1") ∈ _ by simp), by simp [exWidePanel]⟩
      · exact ⟨"av2", lookup_of_mem_nodup hk (show ((2 : ℝ), "av2") ∈ _ by simp), by simp [exWidePanel]⟩
      · exact ⟨"av1", lookup_of_mem_nodup hk (show ((1 : ℝ), "av1") ∈ _ by simp), by simp [exWidePanel]⟩)
  unfold convertWideToLongTable
  rw [this]
  simp only [bind, Except.bind]
  rw [if_neg (by simp [longColumns])]
  rfl

private lemma exPanel_model (env : Env ℝ) (henv : env.badCol = fun _ => false) {L : Frame ℝ}
    (hcol : L.columns = ["id", "alt_id", "choice", "person", "t"]) (hal : AltsOf L "alt_id" [1, 2]) :
    ∃ m, createChoiceModel env "Mixed Logit" L exPanelArgs = .ok m ∧ m.args = exPanelArgs ∧
      m.indVarNames = [.str "t"] := by
  have hL : addIntercept exPanelArgs.specification L = L := by simp [addIntercept, exPanelArgs, encodeAll]
  have hd := design_success env.fmt env.fmtList L [("t", SpecVal.allSame)] "alt_id" [1, 2] hal
    (by simp [hcol]) (by simp [hcol]) (by simp [SpecVal.ValidFor]) (by simp [SpecVal.columns])
  have hk : modelTypeToClass.lookup "Mixed Logit" = some .mixed := by decide
  have hargs : argsFor .mixed exPanelArgs = exPanelArgs := rfl
  obtain ⟨D, hD, hD2⟩ : ∃ D, createDesignMatrix env.fmt env.fmtList (addIntercept exPanelArgs.specification L)
      exPanelArgs.specification "alt_id" none = .ok D ∧ D.2 = [.str "t"] := by
    rw [hL]
    exact ⟨_, hd, rfl⟩
  refine ⟨⟨.mixed, displayNameOf (classOf .mixed), addIntercept exPanelArgs.specification L, D.1, D.2, exPanelArgs,
    some [D.2.findIdx (PyVal.eqStr "t")]⟩, ?_, rfl, hD2⟩
  simp only [createChoiceModel, hk]
  rw [classInit_iff, hargs]
  refine ⟨by simp [exPanelArgs], baseInit_ok.2 ⟨initChecks_ok.2 ?_, ?_⟩⟩
  · simp [exPanelArgs, hcol, checkNamesAndRef, checkNestSpecArg]
  · rw [initBuild_iff]
    refine ⟨?_, ?_, D, hD, ?_, rfl⟩
    · rw [hL, hcol]
      simp [exPanelArgs, encodeAll]
    · simp [henv]
    · simp [exPanelArgs, hD2]

/-- Non-vacuity of `mixed_fit_maximises_wide_logLik_partial`: the conversion and the construction succeed, and at
every mean `b`, standard deviation `sd` and number `n` of draws the fit computes the simulated log-likelihood of the
wide table, whose people are 7 and 8. -/
example (g : Rng) (env : Env ℝ) (henv : env.badCol = fun _ => false) (b sd : ℝ) (n : ℕ) (hn : 0 < n)
    (st : g.State) :
    ∃ long m, convertWideToLongTable (fun _ => false) exWidePanel ["person"] [("t", [(1, "t1"), (2, "t2")])]
        [(1, "av1"), (2, "av2")] "id" "choice" none = .ok long ∧
      createChoiceModel env "Mixed Logit" long exPanelArgs = .ok m ∧
      fitMixedLogLik g m (.int n) none none [b, sd] st =
        .ok (exPanelSpec.simLogLik exWidePanel "person" [7, 8] fun (t : Fin n) i a =>
          clip700 ((if a = 1 then exWidePanel.val "t1" i else if a = 2 then exWidePanel.val "t2" i else 0) *
            (b + sd * personDraw g [7, 8] n st 0 (exWidePanel.val "person" i) t))) := by
  have hacc := exPanel_accepts
  set L := longFrame ["id", "alt_id", "choice", "person", "t"] (wideGridRows exWidePanel ["person"]
    [("t", [(1, "t1"), (2, "t2")])] [(1, "av1"), (2, "av2")] "id" "choice") with hL
  have hal : AltsOf L "alt_id" [1, 2] := longFrame_alts (by decide) (by norm_num) (by
    intro a
    simp only [wideGridRows, exPanel_choices]
    simp [exWidePanel, List.finRange_succ, List.filterMap_cons]
    tauto)
  obtain ⟨m, hm, hargs, hnames⟩ := exPanel_model env henv (L := L) rfl hal
  refine ⟨L, m, hacc, hm, ?_⟩
  have h01 : ZeroOneAvail exWidePanel exPanelSpec.avail := by
    intro ac hac i
    change Fin 3 at i
    simp only [exPanelSpec, List.mem_cons, List.not_mem_nil, or_false] at hac
    rcases hac with rfl | rfl <;> fin_cases i <;> simp [exWidePanel]
  have key := mixed_fit_maximises_wide_logLik_partial g (d := exPanelSpec) (w := exWidePanel) (vars := ["t"])
    (show SortedKeys _ by norm_num [SortedKeys, exPanelSpec]) h01 hacc hm rfl rfl rfl (mixCol := "person") rfl
    (Or.inr (by simp [exPanelSpec])) rfl (by simp) (s := [("t", SpecVal.allSame)]) rfl (by simp)
    (by simp [hargs, exPanelArgs]) (by decide) (col := fun _ => 0)
    (by
      intro j
      have hj : j = 0 := Subsingleton.elim (α := Fin 1) j 0
      subst hj
      simp [hnames])
    hn (seed := none) (st := st) (Or.inl ⟨rfl, rfl⟩) (mean := [b]) (by simp [specColumns, SpecVal.columns])
    (fun _ => sd) none
  have hasc : (exWidePanel.colList exPanelSpec.obsCol).Pairwise (· ≤ ·) := by
    rw [Frame.colList, List.pairwise_ofFn]
    intro i j hij
    change Fin 3 at i j
    fin_cases i <;> fin_cases j <;> simp [exWidePanel, exPanelSpec] at hij ⊢ <;> norm_num
  have hpeople : firstAppearance (exWidePanel.colList "person") = [7, 8] := by
    have : exWidePanel.colList "person" = [7, 7, 8] := by
      simp [Frame.colList, exWidePanel, List.ofFn_succ]
    rw [this]
    norm_num [firstAppearance]
  rw [if_pos hasc, hpeople] at key
  refine key.trans ?_
  simp only [Option.getD_none, zero_mul, sub_zero]
  congr 2
  funext t i a
  congr 1
  simp only [WideSpec.index, specColumns, SpecVal.columns, personCoefs]
  have b21 : ((2 : ℝ) == 1) = false := by norm_num
  by_cases a1 : a = 1
  · subst a1; simp [List.lookup, ColDesc.valueAt, WideSpec.value, exPanelSpec]
  · by_cases a2 : a = 2
    · subst a2; simp [List.lookup, b21, ColDesc.valueAt, WideSpec.value, exPanelSpec]
    · have e1 : (a == 1) = false := by simpa using a1
      have e2 : (a == 2) = false := by simpa using a2
      simp [List.lookup, e1, e2, a1, a2, ColDesc.valueAt, WideSpec.value, exPanelSpec]

end

end Pylogit
