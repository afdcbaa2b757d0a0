import Verif.Model.Commons
import Verif.Spec.Commons
import Verif.Lemmas.Settle
import Verif.Lemmas.Check
import Verif.Lemmas.Node

/-!
# Custom facets, examples and defaults
-/

namespace GoRaml

open Spec

/-! ## The declarations of the ancestors -/

theorem collectFacetDefs_spec (own : OMap Property) : ∀ (l acc : OMap Property),
    (∀ acc', collectFacetDefs own l acc = .ok acc' → (∀ f ∈ l.map (·.2), OMap.get own f.name = none) ∧
      acc' = (l.map (·.2)).foldl (fun m f => OMap.set m f.name f) acc) ∧
    (∀ m, collectFacetDefs own l acc = .err m → ∃ f ∈ l.map (·.2), OMap.get own f.name ≠ none) ∧
    ((∃ acc', collectFacetDefs own l acc = .ok acc') ∨ ∃ m, collectFacetDefs own l acc = .err m)
  | [], acc => by simp [collectFacetDefs]
  | (k, f) :: rest, acc => by
    simp only [collectFacetDefs]
    cases hg : OMap.get own f.name with
    | some x =>
      simp only [Option.isSome_some, if_true]
      refine ⟨by simp, fun m _ => ⟨f, by simp, by simp [hg]⟩, Or.inr ⟨_, rfl⟩⟩
    | none =>
      simp only [Option.isSome_none, Bool.false_eq_true, if_false]
      obtain ⟨h1, h2, h3⟩ := collectFacetDefs_spec own rest (OMap.set acc f.name f)
      refine ⟨?_, ?_, h3⟩
      · intro acc' ha
        obtain ⟨i1, i2⟩ := h1 acc' ha
        refine ⟨?_, by simpa using i2⟩
        intro g hg'
        simp only [List.map_cons, List.mem_cons] at hg'
        rcases hg' with rfl | hg'
        · exact hg
        · exact i1 g hg'
      · intro m hm
        obtain ⟨g, h4, h5⟩ := h2 m hm
        exact ⟨g, by simp at h4 ⊢; exact Or.inr h4, h5⟩

theorem Spec.ChainDefs.unique {h : St} {i : Option Nat} {l l' : List Property} (h1 : ChainDefs h i l) (h2 : ChainDefs h i l') :
    l = l' := by
  induction h1 generalizing l' with
  | root i hs =>
    cases h2 with
    | root => rfl
    | parent _ p ps b l hs' => rw [hs] at hs'; cases hs'
  | parent i p ps b l hs hb _ ih =>
    cases h2 with
    | root _ hs' => rw [hs] at hs'; cases hs'
    | parent _ p' ps' b' l' hs' hb' hc =>
      rw [hs] at hs'; cases hs'
      rw [hb] at hb'; cases hb'
      rw [ih hc]

/-- For a type with ancestors' declarations `l`, the loop comes to an end. -/
theorem facetDefLoop_spec {h : St} {own : OMap Property} {i : Option Nat} {l : List Property} (hc : ChainDefs h i l) :
    ∃ n, ∀ k, n ≤ k → ∀ acc,
      ((∀ f ∈ l, OMap.get own f.name = none) →
        facetDefLoop h own k i acc = .ok (l.foldl (fun m f => OMap.set m f.name f) acc)) ∧
      (¬ (∀ f ∈ l, OMap.get own f.name = none) → ∃ m, facetDefLoop h own k i acc = .err m) := by
  induction hc with
  | root i hs =>
    refine ⟨1, fun k hk acc => ?_⟩
    obtain ⟨k, rfl⟩ : ∃ j, k = j + 1 := ⟨k - 1, by omega⟩
    simp [facetDefLoop, hs]
  | parent i p ps b l hs hb _ ih =>
    obtain ⟨n, hn⟩ := ih
    refine ⟨n + 1, fun k hk acc => ?_⟩
    obtain ⟨k, rfl⟩ : ∃ j, k = j + 1 := ⟨k - 1, by omega⟩
    simp only [facetDefLoop, hs, hb]
    obtain ⟨h1, h2, h3⟩ := collectFacetDefs_spec own (h.props b.facetDefs) acc
    rcases h3 with ⟨acc', ha⟩ | ⟨m, hm⟩
    · obtain ⟨i1, i2⟩ := h1 acc' ha
      obtain ⟨j1, j2⟩ := hn k (by omega) acc'
      rw [ha]
      simp only [Out.bind]
      constructor
      · intro hf
        rw [j1 fun f hf' => hf f (by simp [hf'])]
        rw [List.foldl_append, ← i2]
      · intro hf
        refine j2 fun hall => hf ?_
        intro f hf'
        rcases List.mem_append.1 hf' with h5 | h5
        · exact i1 f h5
        · exact hall f h5
    · obtain ⟨f, hf, hg⟩ := h2 m hm
      rw [hm]
      simp only [Out.bind]
      exact ⟨fun hall => absurd (hall f (List.mem_append.2 (Or.inl hf))) hg, fun _ => ⟨m, rfl⟩⟩

/-- The map of declarations. -/
def defsOf (l : List Property) : OMap Property := l.foldl (fun m f => OMap.set m f.name f) []

theorem defsOf_isMap (l : List Property) : IsMapOf (l.map fun f => (f.name, f)) (defsOf l) := by
  induction l using List.reverseRecOn with
  | nil => exact .nil
  | append_singleton l x ih =>
    unfold defsOf at ih ⊢
    rw [List.foldl_append, List.map_append]
    exact ih.snoc x.name x

theorem mem_defsOf {l : List Property} {k : String} {f : Property} : (k, f) ∈ defsOf l ↔ DeclaresFacet l k f := by
  rw [(defsOf_isMap l).last]
  unfold DeclaresFacet
  constructor
  · rintro ⟨pre, post, h1, h2⟩
    obtain ⟨pre', r, rfl, h3, h4⟩ := List.map_eq_append_iff.1 h1
    obtain ⟨g, post', rfl, h5, rfl⟩ := List.map_eq_cons_iff.1 h4
    injection h5 with h5 h6
    subst h6
    refine ⟨h5, pre', post', rfl, ?_⟩
    intro g' hg' hk
    exact h2 (by simp; exact ⟨g', hg', hk⟩)
  · rintro ⟨rfl, pre, post, rfl, h2⟩
    refine ⟨pre.map fun f => (f.name, f), post.map fun f => (f.name, f), by simp, ?_⟩
    simp only [List.map_map, List.mem_map, Function.comp, not_exists, not_and]
    exact fun g hg => h2 g hg

theorem defsOf_get {l : List Property} {k : String} : (OMap.get (defsOf l) k).isSome = true ↔ ∃ f ∈ l, f.name = k := by
  have hm := defsOf_isMap l
  constructor
  · intro hs
    obtain ⟨f, hf⟩ := Option.isSome_iff_exists.1 hs
    have := (OMap.mem_iff_get hm.nodup k f).2 hf
    obtain ⟨h1, pre, post, rfl, _⟩ := mem_defsOf.1 this
    exact ⟨f, by simp, h1⟩
  · rintro ⟨f, hf, rfl⟩
    -- the last declaration with this name
    have : ∃ g, DeclaresFacet l f.name g := by
      clear hm
      induction l using List.reverseRecOn with
      | nil => simp at hf
      | append_singleton l x ih =>
        by_cases hx : x.name = f.name
        · exact ⟨x, hx, l, [], rfl, by simp⟩
        · have hf' : f ∈ l := by
            rcases List.mem_append.1 hf with h | h
            · exact h
            · simp at h; subst h; exact absurd rfl hx
          obtain ⟨g, h1, pre, post, rfl, h2⟩ := ih hf'
          refine ⟨g, h1, pre, post ++ [x], by simp, ?_⟩
          intro g' hg'
          rcases List.mem_append.1 hg' with h | h
          · exact h2 g' h
          · simp at h; subst h; exact hx
    obtain ⟨g, hg⟩ := this
    rw [(OMap.mem_iff_get hm.nodup _ g).1 (mem_defsOf.2 hg)]
    rfl

theorem facetValue_iff {m : OMap GoVal} {k : String} {v : GoVal} : OMap.get m k = some v ↔ FacetValue m k v := by
  unfold FacetValue
  induction m with
  | nil => simp [OMap.get]
  | cons e m ih =>
    obtain ⟨k1, v1⟩ := e
    simp only [OMap.get]
    by_cases hk : k1 = k
    · subst hk
      rw [if_pos rfl]
      constructor
      · intro h; injection h with h; subst h; exact ⟨[], m, rfl, by simp⟩
      · rintro ⟨pre, post, h1, h2⟩
        cases pre with
        | nil => simp at h1; rw [h1.1]
        | cons x pre => simp at h1; exact absurd (by rw [← h1.1]) (h2 x (by simp))
    · rw [if_neg hk, ih]
      constructor
      · rintro ⟨pre, post, rfl, h2⟩
        refine ⟨(k1, v1) :: pre, post, rfl, ?_⟩
        intro e he
        rcases List.mem_cons.1 he with rfl | he
        · exact hk
        · exact h2 e he
      · rintro ⟨pre, post, h1, h2⟩
        cases pre with
        | nil => simp at h1; exact absurd h1.1.1 hk
        | cons x pre =>
          simp at h1
          exact ⟨pre, post, h1.2, fun e he => h2 e (by simp [he])⟩

theorem facetMissing_iff {m : OMap GoVal} {k : String} : OMap.get m k = none ↔ ∀ v, (k, v) ∉ m := by
  induction m with
  | nil => simp [OMap.get]
  | cons e m ih =>
    obtain ⟨k1, v1⟩ := e
    simp only [OMap.get]
    by_cases hk : k1 = k
    · subst hk; rw [if_pos rfl]; simp only [reduceCtorEq, false_iff, not_forall, not_not]; exact ⟨v1, by simp⟩
    · rw [if_neg hk, ih]; simp [Ne.symm hk]

theorem ownMissing_iff {m : OMap Property} {k : String} : OMap.get m k = none ↔ ∀ e ∈ m, e.1 ≠ k := by
  induction m with
  | nil => simp [OMap.get]
  | cons e m ih =>
    obtain ⟨k1, v1⟩ := e
    simp only [OMap.get]
    by_cases hk : k1 = k
    · subst hk; simp
    · rw [if_neg hk, ih]; simp [hk]

theorem validate_settles (E : Ext) {h : St} (hc : Closed h) (hg : Guarded h) {a : Addr} (ha : a < h.bases.length) {v : GoVal}
    (hv : GoValue v) : Settles (fun k => validate E h k a v) (Valid E h a v) := by
  obtain ⟨n, hn⟩ := validate_decides E hc hg ha hv
  exact ⟨n, fun k hk => hn k hk⟩

theorem Spec.FacetValue.mem {m : OMap GoVal} {k : String} {v : GoVal} (h : FacetValue m k v) : (k, v) ∈ m := by
  obtain ⟨pre, post, rfl, _⟩ := h
  simp

theorem chainDefs_closed {h : St} (hf : FacetsClosed h) {i : Option Nat} {l : List Property} (hc : ChainDefs h i l) :
    ∀ f ∈ l, f.base < h.bases.length := by
  induction hc with
  | root => simp
  | parent i p ps b l hs hb _ ih =>
    intro f hfm
    rcases List.mem_append.1 hfm with h1 | h1
    · obtain ⟨e, he, rfl⟩ := List.mem_map.1 h1
      exact hf p b hb e he
    · exact ih f h1

theorem facets_settle (E : Ext) {h : St} (hc : Closed h) (hg : Guarded h) (hf : FacetsClosed h)
    {ord : OMap Property → OMap Property} (ho : ∀ l, (ord l).Perm l) {b : Base} (hr : RuntimeBase h b) {l : List Property}
    (hl : ChainDefs h b.inherits l) :
    Settles (fun k => validateShapeFacets E h ord k b) (FacetsRight E h b l) := by
  obtain ⟨n, hn⟩ := facetDefLoop_spec (own := h.props b.facetDefs) hl
  by_cases hfresh : ∀ f ∈ l, OMap.get (h.props b.facetDefs) f.name = none
  · have hl1 : ∀ kf : String × Property, kf ∈ ord (defsOf l) ↔ DeclaresFacet l kf.1 kf.2 := by
      intro kf
      rw [(ho (defsOf l)).mem_iff]
      exact mem_defsOf
    have s1 : Settles (fun k => Out.forEach (validateFacet E h k (h.facetMap b.facets)) (ord (defsOf l)))
        (∀ kf ∈ ord (defsOf l), (kf.2.required = true → ∃ v, (kf.1, v) ∈ h.facetMap b.facets) ∧
          ∀ v, FacetValue (h.facetMap b.facets) kf.1 v → Valid E h kf.2.base v) := by
      refine Settles.forEach fun kf hkf => ?_
      have hd := (hl1 kf).1 hkf
      cases hv : OMap.get (h.facetMap b.facets) kf.1 with
      | none =>
        have he : (fun k => validateFacet E h k (h.facetMap b.facets) kf) =
            fun _ => if kf.2.required = true then .err "required custom facet is missing" else .ok () := by
          funext k; simp only [validateFacet, hv]
        rw [he]
        have hm := facetMissing_iff.1 hv
        have hno : ∀ v, ¬ FacetValue (h.facetMap b.facets) kf.1 v := fun v hv' => hm v hv'.mem
        refine Settles.const ?_
        by_cases hq : kf.2.required = true
        · rw [if_pos hq]
          refine Or.inr ⟨⟨_, rfl⟩, ?_⟩
          rintro ⟨h1, _⟩
          obtain ⟨v, hv'⟩ := h1 hq
          exact hm v hv'
        · rw [if_neg hq]
          exact Or.inl ⟨rfl, fun h => absurd h hq, fun v hv' => absurd hv' (hno v)⟩
      | some v =>
        have he : (fun k => validateFacet E h k (h.facetMap b.facets) kf) = fun k => validate E h k kf.2.base v := by
          funext k; simp only [validateFacet, hv]
        rw [he]
        have hfv := facetValue_iff.1 hv
        have hb : kf.2.base < h.bases.length := by
          obtain ⟨_, pre, post, rfl, _⟩ := hd
          exact chainDefs_closed hf hl _ (by simp)
        refine (validate_settles E hc hg hb (hr.facets _ hfv.mem)).congr ?_
        constructor
        · intro hV
          refine ⟨fun _ => ⟨v, hfv.mem⟩, fun v' hv' => ?_⟩
          have := facetValue_iff.2 hv'
          rw [hv] at this; injection this with this; subst this; exact hV
        · intro hh; exact hh.2 v hfv
    have s2 : Settles (fun _ => Out.forEach (knownFacet (defsOf l)) (h.facetMap b.facets))
        (∀ e ∈ h.facetMap b.facets, ∃ f ∈ l, f.name = e.1) := by
      refine Settles.forEach (f := fun _ => knownFacet (defsOf l)) fun e _ => Settles.const ?_
      unfold knownFacet
      by_cases hk : (OMap.get (defsOf l) e.1).isSome = true
      · rw [if_pos hk]; exact Or.inl ⟨rfl, defsOf_get.1 hk⟩
      · rw [if_neg hk]; exact Or.inr ⟨⟨_, rfl⟩, fun h => hk (defsOf_get.2 h)⟩
    obtain ⟨m, hm⟩ := Settles.bind s1 fun _ => s2
    refine ⟨max n m, fun k hk => ?_⟩
    show Decides (validateShapeFacets E h ord k b) _
    unfold validateShapeFacets
    rw [(hn k (by omega) []).1 hfresh]
    refine (hm k (by omega)).congr ?_
    constructor
    · rintro ⟨h1, h2⟩
      refine ⟨?_, ?_, ?_, h2⟩
      · intro f hf' e he; exact ownMissing_iff.1 (hfresh f hf') e he
      · intro k f hd hq; exact (h1 (k, f) ((hl1 _).2 hd)).1 hq
      · intro k f v hd hv; exact (h1 (k, f) ((hl1 _).2 hd)).2 v hv
    · intro hR
      refine ⟨?_, hR.declared⟩
      intro kf hkf
      exact ⟨hR.required _ _ ((hl1 kf).1 hkf), fun v hv => hR.typed _ _ v ((hl1 kf).1 hkf) hv⟩
  · refine ⟨n, fun k hk => ?_⟩
    obtain ⟨m, hm⟩ := (hn k hk []).2 hfresh
    show Decides (validateShapeFacets E h ord k b) _
    unfold validateShapeFacets
    rw [hm]
    refine Or.inr ⟨⟨m, rfl⟩, fun hR => hfresh ?_⟩
    intro f hf'
    exact ownMissing_iff.2 (hR.fresh f hf')

theorem facetsOK_iff {E : Ext} {h : St} {b : Base} {l : List Property} (hl : ChainDefs h b.inherits l) :
    FacetsOK E h b ↔ FacetsRight E h b l := by
  constructor
  · rintro ⟨l', h1, h2⟩; rw [hl.unique h1]; exact h2
  · intro h1; exact ⟨l, hl, h1⟩

/-! ## Examples -/

theorem given_settles (E : Ext) {h : St} (hc : Closed h) (hg : Guarded h) {a : Addr} (ha : a < h.bases.length) {v : Option GoVal}
    (hv : ∀ x, v = some x → GoValue x) :
    Settles (fun k => validateGiven E h k a v) (∀ x, v = some x → Valid E h a x) := by
  cases v with
  | none => exact Settles.ok.congr (by simp)
  | some x => exact (validate_settles E hc hg ha (hv x rfl)).congr (by simp)

theorem examples_settle (E : Ext) {h : St} (hc : Closed h) (hg : Guarded h) {a : Addr} (ha : a < h.bases.length) {b : Base}
    (hr : RuntimeBase h b) : Settles (fun k => validateExamples E h k a b) (ExamplesOK E h a b) := by
  have s1 := given_settles E hc hg ha (v := b.example_.map (·.data)) (by
    intro x hx; obtain ⟨ex, h1, rfl⟩ := Option.map_eq_some_iff.1 hx; exact hr.example ex h1)
  have hl : ∀ e, e ∈ (b.examples.bind (·.map)).getD [] ↔ ∃ exs m, b.examples = some exs ∧ exs.map = some m ∧ e ∈ m := by
    intro e
    cases hb : b.examples with
    | none => simp
    | some exs =>
      simp only [Option.bind_some]
      cases hm : exs.map with
      | none => simp [hm]
      | some m => simp [hm]
  have s2 : Settles (fun k => Out.forEach (fun (kv : String × Example) => validate E h k a kv.2.data) ((b.examples.bind (·.map)).getD []))
      (∀ e ∈ (b.examples.bind (·.map)).getD [], Valid E h a e.2.data) := by
    refine Settles.forEach (f := fun k (kv : String × Example) => validate E h k a kv.2.data) fun e he => ?_
    obtain ⟨exs, m, h1, h2, h3⟩ := (hl e).1 he
    exact validate_settles E hc hg ha (hr.examples exs m h1 h2 e h3)
  have s3 := given_settles E hc hg ha (v := b.default) hr.default
  refine (Settles.bind s1 fun _ => Settles.bind s2 fun _ => s3).congr ?_
  constructor
  · rintro ⟨h1, h2, h3⟩
    refine ⟨fun ex he => h1 _ (by simp [he]), fun exs m he hm e hem => h2 e ((hl e).2 ⟨exs, m, he, hm, hem⟩), h3⟩
  · rintro ⟨h1, h2, h3⟩
    refine ⟨?_, fun e he => ?_, h3⟩
    · intro x hx; obtain ⟨ex, h4, rfl⟩ := Option.map_eq_some_iff.1 hx; exact h1 ex h4
    · obtain ⟨exs, m, h4, h5, h6⟩ := (hl e).1 he; exact h2 exs m h4 h5 e h6

/-! ## Components -/

theorem commonsOK_iff {E : Ext} {h : St} {a : Addr} {b : Base} (hb : h.base a = some b) :
    CommonsOK E h a ↔ FacetsOK E h b ∧ ExamplesOK E h a b ∧ ∀ y, Component h a y → CommonsOK E h y := by
  constructor
  · intro hC
    obtain ⟨b', hb', h1, h2⟩ := hC a (.refl a)
    rw [hb] at hb'; cases hb'
    exact ⟨h1, h2, fun y hy z hz => hC z (.step hy hz)⟩
  · rintro ⟨h1, h2, h3⟩ y hy
    cases hy with
    | refl => exact ⟨b, hb, h1, h2⟩
    | step hc hr => exact h3 _ hc y hr

theorem components_settle {h : St} {s : Option Shape} {rec : Nat → Addr → Out Unit} {P : Addr → Prop}
    (hr : ∀ s', s = some s' → ∀ y, ShapeEdge h s' y → Settles (fun k => rec k y) (P y)) :
    Settles (fun k => validateComponents (rec k) h s) (∀ s', s = some s' → ∀ y, ShapeEdge h s' y → P y) := by
  cases s with
  | none => exact Settles.ok.congr (by simp)
  | some s =>
    cases s with
    | object f =>
      have s1 := Settles.forEach (f := fun k (kp : String × Property) => rec k kp.2.base) (P := fun kp => P kp.2.base)
        (l := h.props f.properties) fun kp hkp => hr _ rfl _ (.property hkp)
      have s2 := Settles.forEach (f := fun k (kp : String × PatternProperty) => rec k kp.2.base) (P := fun kp => P kp.2.base)
        (l := h.patProps f.patternProperties) fun kp hkp => hr _ rfl _ (.pattern hkp)
      refine (Settles.bind s1 fun _ => s2).congr ?_
      constructor
      · rintro ⟨h1, h2⟩ s' hs y hy
        injection hs with hs; subst hs
        cases hy with
        | property hp => exact h1 _ hp
        | pattern hp => exact h2 _ hp
      · intro h1; exact ⟨fun kp hkp => h1 _ rfl _ (.property hkp), fun kp hkp => h1 _ rfl _ (.pattern hkp)⟩
    | array f =>
      cases hi : f.items with
      | none =>
        have he : (fun k => validateComponents (rec k) h (some (.array f))) = fun _ => .ok () := by
          funext k; simp only [validateComponents, hi]
        rw [he]
        refine Settles.ok.congr ?_
        simp only [true_iff]
        intro s' hs y hy; injection hs with hs; subst hs; cases hy with | items h1 => rw [hi] at h1; cases h1
      | some i =>
        have he : (fun k => validateComponents (rec k) h (some (.array f))) = fun k => rec k i := by
          funext k; simp only [validateComponents, hi]
        rw [he]
        refine (hr _ rfl i (.items hi)).congr ?_
        constructor
        · intro hP s' hs y hy
          injection hs with hs; subst hs
          cases hy with | items h1 => rw [hi] at h1; cases h1; exact hP
        · intro h1; exact h1 _ rfl i (.items hi)
    | union l e =>
      refine (Settles.forEach (f := rec) fun m hm => hr _ rfl m (.member hm)).congr ?_
      constructor
      · intro h1 s' hs y hy
        injection hs with hs; subst hs
        cases hy with | member hm => exact h1 _ hm
      · intro h1 m hm; exact h1 _ rfl m (.member hm)
    | _ =>
      refine Settles.ok.congr ?_
      simp only [true_iff]
      intro s' hs y hy; injection hs with hs; subst hs; cases hy

theorem acc_of_noInfiniteComponents {h : St} {a : Addr} (hn : NoInfiniteComponents h a) : Acc (fun y x => Component h x y) a := by
  by_contra hna
  have step : ∀ x : { x // ¬ Acc (fun y x => Component h x y) x }, ∃ y : { x // ¬ Acc (fun y x => Component h x y) x },
      Component h x.1 y.1 := by
    rintro ⟨x, hx⟩
    by_contra hcon
    exact hx (Acc.intro x fun y hy => by by_contra hy'; exact hcon ⟨⟨y, hy'⟩, hy⟩)
  choose g hg using step
  let F : Nat → { x // ¬ Acc (fun y x => Component h x y) x } := fun n => g^[n] ⟨a, hna⟩
  obtain ⟨n, hn⟩ := hn (fun n => (F n).1) rfl
  apply hn
  have : F (n + 1) = g (F n) := by simp only [F, Function.iterate_succ_apply']
  show Component h (F n).1 (F (n + 1)).1
  rw [this]
  exact hg _

theorem commons_settle (E : Ext) {h : St} (hc : Closed h) (hg : Guarded h) (hf : FacetsClosed h) (hro : Rooted h)
    (hrt : RuntimeValues h) {ord : OMap Property → OMap Property} (ho : ∀ l, (ord l).Perm l) {a : Addr}
    (hacc : Acc (fun y x => Component h x y) a) (ha : a < h.bases.length) :
    Settles (fun k => validateCommons E h ord k a) (CommonsOK E h a) := by
  induction hacc with
  | intro a _ ih =>
    have hb : ∃ b, h.base a = some b := ⟨h.bases[a], by simp [St.base, ha]⟩
    obtain ⟨b, hb⟩ := hb
    have hlt : ∀ y, Component h a y → y < h.bases.length := by
      rintro y ⟨b', hb', h1⟩
      rw [hb] at hb'; cases hb'
      rcases h1 with ⟨s, hs, he⟩ | ⟨e, he, rfl⟩
      · obtain ⟨s', hs', hm⟩ := hc a b hb
        rw [hs] at hs'; cases hs'
        cases he with
        | items h2 => exact hm _ h2
        | property h2 => exact hm.1 _ h2
        | pattern h2 => exact hm.2 _ h2
        | member h2 => exact hm _ h2
      · exact hf a b hb e he
    refine Settles.succ ?_
    simp only [validateCommons, hb]
    obtain ⟨l, hl⟩ := hro a b hb
    have s1 := facets_settle E hc hg hf ho (hrt a b hb) hl
    have s2 := examples_settle E hc hg ha (hrt a b hb)
    have s3 := components_settle (h := h) (s := b.shape) (rec := fun k => validateCommons E h ord k)
      (P := CommonsOK E h) fun s hs y hy => ih y ⟨b, hb, Or.inl ⟨s, hs, hy⟩⟩ (hlt y ⟨b, hb, Or.inl ⟨s, hs, hy⟩⟩)
    have s4 := Settles.forEach (f := fun k (kp : String × Property) => validateCommons E h ord k kp.2.base)
      (P := fun kp => CommonsOK E h kp.2.base) (l := h.props b.facetDefs)
      fun kp hkp => ih _ ⟨b, hb, Or.inr ⟨kp, hkp, rfl⟩⟩ (hlt _ ⟨b, hb, Or.inr ⟨kp, hkp, rfl⟩⟩)
    refine (Settles.bind s1 fun _ => Settles.bind s2 fun _ => Settles.bind s3 fun _ => s4).congr ?_
    rw [commonsOK_iff hb, facetsOK_iff hl]
    constructor
    · rintro ⟨h1, h2, h3, h4⟩
      refine ⟨h1, h2, ?_⟩
      rintro y ⟨b', hb', h5⟩
      rw [hb] at hb'; cases hb'
      rcases h5 with ⟨s, hs, he⟩ | ⟨e, he, rfl⟩
      · exact h3 s hs y he
      · exact h4 e he
    · rintro ⟨h1, h2, h3⟩
      exact ⟨h1, h2, fun s hs y hy => h3 y ⟨b, hb, Or.inl ⟨s, hs, hy⟩⟩, fun e he => h3 _ ⟨b, hb, Or.inr ⟨e, he, rfl⟩⟩⟩

end GoRaml
