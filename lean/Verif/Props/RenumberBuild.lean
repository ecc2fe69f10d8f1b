import Verif.Props.Renumber
import Verif.Props.SpecOrderBuild

/-!
# C131: whether a model can be built does not depend on the numbers of the alternatives
-/

open Function

namespace Pylogit

open Spec

/-- The nests with the new numbers of the alternatives. -/
def Spec.renumberNests (g : ℝ → ℝ) (ns : List (String × List ℝ)) : List (String × List ℝ) :=
  ns.map fun n => (n.1, n.2.map g)

/-- The arguments `a'` are the arguments `a` with the new numbers of the alternatives in the specification and in the
nests. -/
structure Spec.SameButNumbers (g : ℝ → ℝ) (a a' : ModelArgs ℝ) (s : List (String × SpecVal ℝ)) : Prop where
  spec : a.specification = encodeAll s
  spec' : a'.specification = encodeAll (renumberSpec g s)
  nests : a.nestSpec = none ∧ a'.nestSpec = none ∨
    ∃ ns, a.nestSpec = some (encodeNests ns) ∧ a'.nestSpec = some (encodeNests (renumberNests g ns))
  others : a' = { a with specification := a'.specification, nestSpec := a'.nestSpec }

namespace Renumbering

theorem colList_renumbered {df : Frame ℝ} {c : String} {g : ℝ → ℝ} :
    (renumbered df c g).colList c = (df.colList c).map g := by
  unfold Frame.colList
  rw [List.map_ofFn]
  congr 1
  funext r
  exact renumbered_val_self (df := df) r

theorem unique_renumbered {g : ℝ → ℝ} (hg : Injective g) {df : Frame ℝ} {c : String} :
    (npSort (npUnique ((renumbered df c g).colList c))).Perm ((npSort (npUnique (df.colList c))).map g) := by
  have h : ∀ df : Frame ℝ, AltsOf df c (npSort (npUnique (df.colList c))) := fun df => by
    rw [npSort_npUnique]
    exact ⟨npUnique_strict _, fun a => by rw [mem_npUnique, Frame.colList, List.mem_ofFn]⟩
  exact alts_renumbered hg (h df) (h _)

theorem numAlts_renumbered {g : ℝ → ℝ} (hg : Injective g) {df : Frame ℝ} {c : String} :
    numAlternatives (renumbered df c g) c = numAlternatives df c := by
  unfold numAlternatives
  rw [colList_renumbered, List.dedup_map_of_injective hg, List.length_map]

theorem partition_renumbered {isInt : ℝ → Bool} {g : ℝ → ℝ} (hg : Injective g)
    (hint : ∀ x, isInt (g x) = isInt x) {ns : List (String × List ℝ)} {ids : List ℝ}
    (h : NestPartition isInt ns ids) : NestPartition isInt (renumberNests g ns) (ids.map g) := by
  obtain ⟨h1, h2, h3, h4, h5⟩ := h
  refine ⟨by simpa [renumberNests] using h1, ?_, ?_, ?_, ?_⟩
  · intro n hn
    obtain ⟨x, hx, rfl⟩ := List.mem_map.1 hn
    simpa using h2 x hx
  · intro n hn b hb
    obtain ⟨x, hx, rfl⟩ := List.mem_map.1 hn
    obtain ⟨y, hy, rfl⟩ := List.mem_map.1 hb
    rw [hint]
    exact h3 x hx y hy
  · intro b hb
    obtain ⟨y, hy, rfl⟩ := List.mem_map.1 hb
    have : (renumberNests g ns).flatMap Prod.snd = (ns.flatMap Prod.snd).map g := by
      simp [renumberNests, List.flatMap_map, List.map_flatMap]
    rw [this, List.count_map_of_injective _ g hg]
    exact h4 y hy
  · intro n hn b hb
    obtain ⟨x, hx, rfl⟩ := List.mem_map.1 hn
    obtain ⟨y, hy, rfl⟩ := List.mem_map.1 hb
    exact List.mem_map.2 ⟨y, h5 x hx y hy, rfl⟩

theorem wellFormed_renumber {g : ℝ → ℝ} {alts alts' : List ℝ} (hp : alts'.Perm (alts.map g)) {v : SpecVal ℝ}
    (h : WellFormed alts v.encode) : WellFormed alts' (v.renumber g).encode := by
  have hm : ∀ a ∈ alts, g a ∈ alts' := fun a ha => hp.mem_iff.2 (List.mem_map.2 ⟨a, ha, rfl⟩)
  cases v with
  | allSame => exact .inl rfl
  | allDiff => exact .inr (.inl rfl)
  | groups l =>
    rcases h with h | h | ⟨gs, h, h'⟩
    · cases h
    · cases h
    · obtain rfl : l.map encodeGroup = gs := by simpa [SpecVal.encode] using h
      refine .inr (.inr ⟨_, rfl, fun x hx => ?_⟩)
      obtain ⟨y, hy, rfl⟩ := List.mem_map.1 hx
      obtain ⟨z, hz, rfl⟩ := List.mem_map.1 hy
      have hzz := h' _ (List.mem_map.2 ⟨z, hz, rfl⟩)
      cases z with
      | inl a =>
        rcases hzz with ⟨b, hb, e⟩ | ⟨k, -, e⟩
        · cases e
          exact .inl ⟨_, hm _ hb, rfl⟩
        · cases e
      | inr k =>
        rcases hzz with ⟨b, -, e⟩ | ⟨k', hk, e⟩
        · cases e
        · have e' : k.map PyVal.num = k'.map PyVal.num := by simpa [encodeGroup] using e
          obtain rfl : k = k' := List.map_injective_iff.2 (fun a b h => by cases h; rfl) e'
          refine .inr ⟨k.map g, fun a ha => ?_, rfl⟩
          obtain ⟨b, hb, rfl⟩ := List.mem_map.1 ha
          exact hm _ (hk b hb)

theorem lookup_renumber (g : ℝ → ℝ) (s : List (String × SpecVal ℝ)) (k : String) (n : ℕ) (x : PyVal ℝ) :
    (∃ v, (encodeAll s).lookup k = some v ∧ checkNameValue n v x = .ok ()) →
      ∃ v, (encodeAll (renumberSpec g s)).lookup k = some v ∧ checkNameValue n v x = .ok () := by
  induction s with
  | nil => simp [encodeAll]
  | cons kv s ih =>
    obtain ⟨k', v⟩ := kv
    simp only [encodeAll, renumberSpec, List.map_cons, List.lookup_cons] at ih ⊢
    by_cases h : (k == k') = true
    · simp only [h]
      rintro ⟨w, hw', hw⟩
      obtain rfl := Option.some.inj hw'
      refine ⟨_, rfl, ?_⟩
      cases v with
      | allSame => exact hw
      | allDiff => exact hw
      | groups l => simpa [SpecVal.encode, SpecVal.renumber, checkNameValue] using hw
    · simp only [h]
      exact ih

theorem design_renumbered {fmt : ℝ → String} {fmtList : List (PyVal ℝ) → String} {df : Frame ℝ} {altCol : String}
    {g : ℝ → ℝ} (hg : Injective g) {s : List (String × SpecVal ℝ)} {names : Option (List (String × PyVal ℝ))}
    {d : List (Fin df.numRows → ℝ) × List (PyVal ℝ)}
    (hd : createDesignMatrix fmt fmtList df (encodeAll s) altCol names = .ok d) :
    ∃ d', createDesignMatrix fmt fmtList (renumbered df altCol g) (encodeAll (renumberSpec g s)) altCol names = .ok d' ∧
      (names ≠ none → d'.2 = d.2) := by
  obtain ⟨cols, nms⟩ := d
  obtain ⟨g1, g2, g3, g4, cs, g5, g6, g7, g8⟩ := (createDesignMatrix_ok_iff rfl).1 hd
  rw [designColumns_encode] at g5
  obtain rfl := (Except.ok.inj g5).symm
  have hp := unique_renumbered hg (df := df) (c := altCol)
  have hk : (encodeAll s).map Prod.fst = s.map Prod.fst := by simp [encodeAll, Function.comp_def]
  have k1 : ∀ c ∈ (encodeAll (renumberSpec g s)).map Prod.fst, c ∈ (renumbered df altCol g).columns := by
    rw [keys_renumber, ← hk]
    exact g2
  have k2 : checkSpecDict (npSort (npUnique ((renumbered df altCol g).colList altCol)))
      (encodeAll (renumberSpec g s)) = .ok () := by
    rw [checkSpecDict_ok_iff] at g3 ⊢
    intro kv hkv
    obtain ⟨x, hx, rfl⟩ := List.mem_map.1 hkv
    obtain ⟨y, hy, rfl⟩ := List.mem_map.1 hx
    exact wellFormed_renumber hp (g3 (y.1, y.2.encode) (List.mem_map.2 ⟨y, hy, rfl⟩))
  have k3 : described fmt fmtList (renumbered df altCol g) altCol ((renumberSpec g s).flatMap fun kv =>
      kv.2.columns (npSort (npUnique ((renumbered df altCol g).colList altCol))) kv.1) ≠ [] := by
    intro e
    refine g6 ?_
    have e' : specColumns _ (renumberSpec g s) = [] := List.map_eq_nil_iff.1 e
    have hc := columns_perm hp (renumberSpec g s)
    rw [e', columns_map] at hc
    have := List.map_eq_nil_iff.1 hc.symm.eq_nil
    unfold specColumns at this
    rw [this]
    rfl
  have k4 : ∀ ns, names = some ns → checkNameDict ns (encodeAll (renumberSpec g s))
      (npSort (npUnique ((renumbered df altCol g).colList altCol))).length = .ok () := by
    intro ns e
    obtain ⟨c1, c2⟩ := checkNameDict_ok.1 (g4 ns e)
    refine checkNameDict_ok.2 ⟨fun k => ?_, fun kv hkv => ?_⟩
    · rw [keys_renumber, ← hk]
      exact c1 k
    · rw [hp.length_eq, List.length_map]
      exact lookup_renumber g s _ _ _ (c2 kv hkv)
  rcases g8 with ⟨e, -⟩ | ⟨ns, e, hfl⟩
  · exact ⟨(_, _), (createDesignMatrix_ok_iff rfl).2 ⟨g1, k1, k2, k4, _, designColumns_encode .., k3, rfl,
      .inl ⟨e, rfl⟩⟩, fun h => absurd e h⟩
  · exact ⟨(_, nms), (createDesignMatrix_ok_iff rfl).2 ⟨g1, k1, k2, k4, _, designColumns_encode .., k3, rfl,
      .inr ⟨ns, e, hfl⟩⟩, fun _ => rfl⟩

theorem buildable_renumbered {env : Env ℝ} {cls : ModelType} {df : Frame ℝ} {g : ℝ → ℝ} (hg : Injective g)
    (hint : ∀ x, env.isInt (g x) = env.isInt x) {a a' : ModelArgs ℝ} {s : List (String × SpecVal ℝ)}
    (h : SameButNumbers g a a' s) (hvar : a.altIdCol ∉ s.map Prod.fst) (hmix : cls = .mixed → a.names ≠ none)
    (hb : Buildable env cls df a) : Buildable env cls (renumbered df a.altIdCol g) a' := by
  obtain ⟨h1, h2, h3, h4⟩ := h
  obtain ⟨x1, x2, x3, x4, x5, x6, x7, x8, x9, x10, x11, x12⟩ := a
  obtain ⟨y1, y2, y3, y4, y5, y6, y7, y8, y9, y10, y11, y12⟩ := a'
  simp only [ModelArgs.mk.injEq] at h4
  obtain ⟨rfl, rfl, rfl, -, rfl, rfl, rfl, rfl, rfl, -, rfl, rfl⟩ := h4
  dsimp only at h1 h2 h3 hvar hmix
  subst h1 h2
  obtain ⟨b1, b2, b3, b4, b5, b6, b7, b8, d, b9, b10⟩ := hb
  dsimp only at b1 b2 b3 b4 b5 b6 b7 b8 d b9 b10
  obtain ⟨d', hd', hv⟩ := design_renumbered hg b9
  have hkeys : (encodeAll (renumberSpec g s)).map Prod.fst = (encodeAll s).map Prod.fst := by
    rw [keys_renumber]
    simp [encodeAll, Function.comp_def]
  have hkey : ∀ kv ∈ encodeAll (renumberSpec g s), ∃ kv' ∈ encodeAll s, kv'.1 = kv.1 := fun kv hkv => by
    have : kv.1 ∈ (encodeAll (renumberSpec g s)).map Prod.fst := List.mem_map.2 ⟨kv, hkv, rfl⟩
    rw [hkeys] at this
    exact List.mem_map.1 this
  have hn : cls = .nested → ∃ t, y10 = some (encodeNests t) ∧
      NestPartition env.isInt t ((renumbered df y1 g).colList y1) := by
    intro hc
    obtain ⟨t, t1, t2⟩ := b6 hc
    rcases h3 with ⟨e, -⟩ | ⟨ns, e1, e2⟩
    · rw [e] at t1; cases t1
    · have : t = ns := by
        have e : (encodeNests t).mapM decodeNest = (encodeNests ns).mapM decodeNest := by
          rw [Option.some.inj (t1.symm.trans e1)]
        rw [decodeNest_encode, decodeNest_encode] at e
        exact Option.some.inj e
      subst this
      exact ⟨_, e2, by rw [colList_renumbered]; exact partition_renumbered hg hint t2⟩
  rw [← numAlts_renumbered hg] at b3 b4 b5
  refine ⟨b1, b2, b3, b4, b5, hn, fun kv hkv => ?_, fun kv hkv => ?_, ?_⟩
  · obtain ⟨kv', h, e⟩ := hkey kv hkv
    exact e ▸ b7 kv' h
  · obtain ⟨kv', h, e⟩ := hkey kv hkv
    exact e ▸ b8 kv' h
  · dsimp only
    rw [addIntercept_renumbered hvar]
    refine ⟨d', hd', fun hc l hl v hvl => ?_⟩
    rw [hv (hmix hc)]
    exact b10 hc l hl v hvl

theorem renumbered_back (g : ℝ ≃ ℝ) (df : Frame ℝ) (c : String) : renumbered (renumbered df c g) c g.symm = df := by
  obtain ⟨cols, n, val⟩ := df
  simp only [renumbered, Frame.mk.injEq, heq_eq_eq, true_and]
  funext x r
  split_ifs <;> simp

theorem spec_back (g : ℝ ≃ ℝ) (s : List (String × SpecVal ℝ)) : renumberSpec g.symm (renumberSpec g s) = s := by
  unfold renumberSpec
  rw [List.map_map]
  conv_rhs => rw [← List.map_id s]
  refine List.map_congr_left fun kv _ => ?_
  obtain ⟨k, v⟩ := kv
  cases v with
  | allSame => rfl
  | allDiff => rfl
  | groups l =>
    have : (l.map (Sum.map g (List.map g))).map (Sum.map g.symm (List.map g.symm)) = l := by
      rw [List.map_map]
      conv_rhs => rw [← List.map_id l]
      refine List.map_congr_left fun x _ => ?_
      cases x <;> simp [Function.comp_def]
    simp [SpecVal.renumber, this]

end Renumbering

open Renumbering in
/-- **C131** (construction). A model is built for one numbering of the alternatives iff it is built for another: integers
are to remain integers, and the columns of a mixed logit model have names of their own, which do not contain the numbers.
(Every renumbering of finitely many alternatives is the restriction of a bijection.) -/
theorem construction_ignores_alternative_numbers {env : Env ℝ} {ty : String} {df : Frame ℝ} {g : ℝ ≃ ℝ}
    (hint : ∀ x, env.isInt (g x) = env.isInt x) {a a' : ModelArgs ℝ} {s : List (String × SpecVal ℝ)}
    (h : SameButNumbers g a a' s) (hvar : a.altIdCol ∉ s.map Prod.fst) (hmix : ty = "Mixed Logit" → a.names ≠ none) :
    (∃ m, createChoiceModel env ty df a = .ok m) ↔
      ∃ m', createChoiceModel env ty (renumbered df a.altIdCol g) a' = .ok m' := by
  cases hl : modelTypeToClass.lookup ty with
  | none => simp [createChoiceModel, hl]
  | some cls =>
    obtain rfl := (lookup_class _ _).1 hl
    have hmix' : cls = .mixed → a.names ≠ none := fun e => hmix (by rw [e]; rfl)
    rw [construction_iff, construction_iff]
    refine ⟨buildable_renumbered g.injective hint h hvar hmix', fun hb => ?_⟩
    obtain ⟨h1, h2, h3, h4⟩ := h
    have halt : a'.altIdCol = a.altIdCol := by rw [h4]
    have hnames : a'.names = a.names := by rw [h4]
    have hback : SameButNumbers g.symm a' a (renumberSpec g s) := by
      refine ⟨h2, by rw [spec_back]; exact h1, ?_, by rw [h4]⟩
      rcases h3 with ⟨e1, e2⟩ | ⟨ns, e1, e2⟩
      · exact .inl ⟨e2, e1⟩
      · refine .inr ⟨_, e2, ?_⟩
        rw [e1]
        simp [renumberNests, Function.comp_def]
    have := buildable_renumbered g.symm.injective
      (fun x => by rw [← hint (g.symm x), g.apply_symm_apply]) hback
      (by rw [halt]; simpa [renumberSpec, Function.comp_def] using hvar) (fun e => by rw [hnames]; exact hmix' e) hb
    rw [halt, renumbered_back] at this
    exact this

end Pylogit
