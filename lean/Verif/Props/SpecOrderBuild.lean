import Verif.Props.SpecOrder
import Verif.Props.ConstructMore
import Verif.Props.WholeBootNested

/-!
# C130: whether a model can be built does not depend on the order of its variables
-/

namespace Pylogit

open Spec

/-- Two sets of arguments agree, but may list the variables, the nests and the alternatives of the nests in other
orders. -/
structure Spec.SameButOrder (a a' : ModelArgs ℝ) (s s' : List (String × SpecVal ℝ)) : Prop where
  spec : a.specification = encodeAll s
  spec' : a'.specification = encodeAll s'
  perm : s'.Perm s
  distinct : (s.map Prod.fst).Nodup
  names : SameNames a a'
  nests : a'.nestSpec = a.nestSpec ∨ ∃ ns ns' π, a.nestSpec = some (encodeNests ns) ∧
    a'.nestSpec = some (encodeNests ns') ∧ RelistsNests ns' ns π
  others : a' = { a with specification := a'.specification, names := a'.names, nestSpec := a'.nestSpec }

namespace ListingOrder

theorem same_symm {a a' : ModelArgs ℝ} {s s' : List (String × SpecVal ℝ)} (h : SameButOrder a a' s s') :
    SameButOrder a' a s' s := by
  obtain ⟨h1, h2, h3, h4, h5, h6, h7⟩ := h
  refine ⟨h2, h1, h3.symm, (h3.map Prod.fst).nodup_iff.2 h4, ?_, ?_, ?_⟩
  · rcases h5 with ⟨e1, e2⟩ | ⟨ns, ns', e1, e2, e3, e4, e5⟩
    · exact .inl ⟨e2, e1⟩
    · exact .inr ⟨ns', ns, e2, e1, e3.symm, e5, e4⟩
  · rcases h6 with e | ⟨ns, ns', π, e1, e2, e3⟩
    · exact .inl e.symm
    · refine .inr ⟨ns', ns, π.symm, e2, e1, fun i => ?_⟩
      have := e3 (π.symm i)
      rw [π.apply_symm_apply] at this
      exact ⟨this.1.symm, this.2.symm⟩
  · rw [h7]

theorem partition_relisted {isInt : ℝ → Bool} {ns ns' : List (String × List ℝ)} {ids : List ℝ}
    {π : Fin ns'.length ≃ Fin ns.length} (hπ : RelistsNests ns' ns π) (h : NestPartition isInt ns ids) :
    NestPartition isInt ns' ids := by
  obtain ⟨h1, h2, h3, h4, h5⟩ := h
  have hmem : ∀ n ∈ ns', ∃ n₀ ∈ ns, n.2.Perm n₀.2 := by
    intro n hn
    obtain ⟨i, rfl⟩ := List.mem_iff_get.1 hn
    exact ⟨_, List.get_mem _ _, (hπ i).2⟩
  refine ⟨fun e => h1 ?_, fun n hn e => ?_, fun n hn a ha => ?_, fun a ha => ?_, fun n hn a ha => ?_⟩
  · have := Fintype.card_congr π
    simp only [Fintype.card_fin] at this
    rw [e] at this
    exact List.length_eq_zero_iff.1 this.symm
  · obtain ⟨n₀, h0, hp⟩ := hmem n hn
    rw [e] at hp
    exact h2 _ h0 hp.symm.eq_nil
  · obtain ⟨n₀, h0, hp⟩ := hmem n hn
    exact h3 _ h0 a (hp.mem_iff.1 ha)
  · rw [← h4 a ha]
    have key : ∀ l : List (String × List ℝ), (l.flatMap Prod.snd).count a = ∑ i, (l.get i).2.count a := by
      intro l
      induction l with
      | nil => rfl
      | cons n l ih =>
        rw [List.flatMap_cons, List.count_append, ih]
        exact (Fin.sum_univ_succ (n := l.length) fun i => ((n :: l).get i).2.count a).symm
    rw [key, key, ← π.sum_comp]
    exact Finset.sum_congr rfl fun i _ => (hπ i).2.count_eq a
  · obtain ⟨n₀, h0, hp⟩ := hmem n hn
    exact h5 _ h0 a (hp.mem_iff.1 ha)

theorem lookup_perm {l l' : List (String × PyVal ℝ)} (hn : (l.map Prod.fst).Nodup) (h : l'.Perm l) (k : String) :
    l'.lookup k = l.lookup k := by
  have hn' : (l'.map Prod.fst).Nodup := (h.map Prod.fst).nodup_iff.2 hn
  by_cases hk : k ∈ l.map Prod.fst
  · obtain ⟨⟨k, v⟩, hv, rfl⟩ := List.mem_map.1 hk
    rw [lookup_of_mem_nodup hn hv, lookup_of_mem_nodup hn' (h.mem_iff.2 hv)]
  · have hk' : k ∉ l'.map Prod.fst := fun e => hk ((h.map Prod.fst).mem_iff.1 e)
    rw [List.lookup_eq_none_iff.2, List.lookup_eq_none_iff.2]
    · intro p hp
      simp only [bne_iff_ne, ne_eq]
      exact fun e => hk (e ▸ List.mem_map.2 ⟨p, hp, rfl⟩)
    · intro p hp
      simp only [bne_iff_ne, ne_eq]
      exact fun e => hk' (e ▸ List.mem_map.2 ⟨p, hp, rfl⟩)

theorem design_perm {fmt : ℝ → String} {fmtList : List (PyVal ℝ) → String} {df : Frame ℝ} {altCol : String}
    {a a' : ModelArgs ℝ} {s s' : List (String × SpecVal ℝ)} (h : SameButOrder a a' s s')
    {d : List (Fin df.numRows → ℝ) × List (PyVal ℝ)}
    (hd : createDesignMatrix fmt fmtList df a.specification altCol a.names = .ok d) :
    ∃ d', createDesignMatrix fmt fmtList df a'.specification altCol a'.names = .ok d' ∧ ∀ v ∈ d.2, v ∈ d'.2 := by
  obtain ⟨h1, h2, h3, h4, h5, -, -⟩ := h
  obtain ⟨cols, nms⟩ := d
  have hp : (encodeAll s').Perm (encodeAll s) := h3.map _
  have hk : ((encodeAll s).map Prod.fst).Nodup := by simpa [encodeAll, Function.comp_def] using h4
  rw [h1] at hd
  obtain ⟨g1, g2, g3, g4, cs, g5, g6, g7, g8⟩ := (createDesignMatrix_ok_iff rfl).1 hd
  rw [designColumns_encode] at g5
  obtain rfl := (Except.ok.inj g5).symm
  rw [h2]
  have k1 : ∀ c ∈ (encodeAll s').map Prod.fst, c ∈ df.columns := fun c hc =>
    g2 c ((hp.map Prod.fst).mem_iff.1 hc)
  have k2 : checkSpecDict (npSort (npUnique (df.colList altCol))) (encodeAll s') = .ok () :=
    (checkSpecDict_ok_iff _ _).2 fun kv hkv => (checkSpecDict_ok_iff _ _).1 g3 kv (hp.mem_iff.1 hkv)
  have hcp := specColumns_perm (npSort (npUnique (df.colList altCol))) h3
  have k3 : described fmt fmtList df altCol
      (s'.flatMap fun kv => kv.2.columns (npSort (npUnique (df.colList altCol))) kv.1) ≠ [] := by
    intro e
    refine g6 ?_
    have e' := List.map_eq_nil_iff.1 e
    unfold specColumns at hcp
    rw [e'] at hcp
    rw [hcp.symm.eq_nil]
    rfl
  rcases h5 with ⟨e1, e2⟩ | ⟨ns, ns', e1, e2, e3, e4, e5⟩
  · refine ⟨(_, _), (createDesignMatrix_ok_iff rfl).2 ⟨g1, k1, k2, by simp [e2], _, designColumns_encode .., k3, rfl,
      .inl ⟨e2, rfl⟩⟩, ?_⟩
    rcases g8 with ⟨-, rfl⟩ | ⟨ns, e, -⟩
    · intro v hv
      have := (hcp.map fun d => (d.value df altCol, d.name fmt fmtList)).map fun c : (Fin df.numRows → ℝ) × String =>
        (PyVal.str c.2 : PyVal ℝ)
      exact this.mem_iff.2 hv
    · rw [e1] at e; cases e
  · rcases g8 with ⟨e, -⟩ | ⟨ns₂, e, hfl⟩
    · rw [e1] at e; cases e
    · obtain rfl : ns = ns₂ := Option.some.inj (e1.symm.trans e)
      obtain ⟨f, f1, rfl⟩ := flattenNames_ok.1 hfl
      refine ⟨(_, ns'.flatMap f), (createDesignMatrix_ok_iff rfl).2 ⟨g1, k1, k2, fun n hn => ?_, _, designColumns_encode ..,
        k3, rfl, .inr ⟨ns', e2, flattenNames_ok.2 ⟨f, fun kv hkv => f1 kv (e3.mem_iff.1 hkv), rfl⟩⟩⟩, ?_⟩
      · obtain rfl : ns' = n := Option.some.inj (e2.symm.trans hn)
        obtain ⟨c1, c2⟩ := checkNameDict_ok.1 (g4 ns e1)
        refine checkNameDict_ok.2 ⟨fun k => ?_, fun kv hkv => ?_⟩
        · rw [(e3.map Prod.fst).mem_iff, (hp.map Prod.fst).mem_iff]
          exact c1 k
        · rw [lookup_perm hk hp]
          exact c2 kv (e3.mem_iff.1 hkv)
      · exact fun v hv => (e3.flatMap_right f).mem_iff.2 hv

theorem buildable_relisted {env : Env ℝ} {cls : ModelType} {df : Frame ℝ} {a a' : ModelArgs ℝ}
    {s s' : List (String × SpecVal ℝ)} (h : SameButOrder a a' s s') (hb : Buildable env cls df a) :
    Buildable env cls df a' := by
  obtain ⟨b1, b2, b3, b4, b5, b6, b7, b8, d, b9, b10⟩ := hb
  obtain ⟨d', hd', hv⟩ := design_perm h b9
  obtain ⟨h1, h2, h3, h4, h5, h6, h7⟩ := h
  have hadd : addIntercept a'.specification df = addIntercept a.specification df := by
    rw [h1, h2]
    exact addIntercept_perm h3 df
  have hmem : ∀ kv ∈ a'.specification, kv ∈ a.specification := by
    rw [h1, h2]
    exact fun kv hkv => (h3.map _).mem_iff.1 hkv
  have hn : cls = .nested → ∃ t, a'.nestSpec = some (encodeNests t) ∧
      NestPartition env.isInt t (df.colList a.altIdCol) := by
    intro hc
    obtain ⟨t, t1, t2⟩ := b6 hc
    rcases h6 with e | ⟨ns, ns', π, e1, e2, e3⟩
    · exact ⟨t, e.trans t1, t2⟩
    · have : t = ns := by
        have e : (encodeNests t).mapM decodeNest = (encodeNests ns).mapM decodeNest := by
          rw [Option.some.inj (t1.symm.trans e1)]
        rw [decodeNest_encode, decodeNest_encode] at e
        exact Option.some.inj e
      subst this
      exact ⟨ns', e2, partition_relisted e3 t2⟩
  obtain ⟨x1, x2, x3, x4, x5, x6, x7, x8, x9, x10, x11, x12⟩ := a'
  simp only [ModelArgs.mk.injEq] at h7
  obtain ⟨rfl, rfl, rfl, -, -, rfl, rfl, rfl, rfl, -, rfl, rfl⟩ := h7
  refine ⟨b1, b2, b3, b4, b5, hn, fun kv hkv => b7 kv (hmem kv hkv), fun kv hkv => b8 kv (hmem kv hkv), ?_⟩
  rw [hadd]
  exact ⟨d', hd', fun hc l hl v hvl => hv _ (b10 hc l hl v hvl)⟩

end ListingOrder

open ListingOrder in
/-- **C130** (construction). A model is built with the variables, nests and alternatives of nests in one order iff it is
built with them in another order. -/
theorem construction_ignores_listing_order {env : Env ℝ} {ty : String} {df : Frame ℝ} {a a' : ModelArgs ℝ}
    {s s' : List (String × SpecVal ℝ)} (h : SameButOrder a a' s s') :
    (∃ m, createChoiceModel env ty df a = .ok m) ↔ ∃ m', createChoiceModel env ty df a' = .ok m' := by
  cases hl : modelTypeToClass.lookup ty with
  | none => simp [createChoiceModel, hl]
  | some cls =>
    obtain rfl := (lookup_class _ _).1 hl
    rw [construction_iff, construction_iff]
    exact ⟨buildable_relisted h, buildable_relisted (same_symm h)⟩

end Pylogit
