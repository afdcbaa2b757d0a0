import Verif.Lemmas.Commons
import Verif.Lemmas.Graph
import Verif.Props.Validate

/-!
# Properties C45 and C46: custom facets, examples and defaults

`Settled`: from some fuel on, the function returns nil exactly when `P` holds and an error exactly when it does not.
The right-hand sides come from `Verif.Spec.Commons`; `ord` is the order in which Go visits the entries of a map.
-/

namespace GoRaml.Props

open GoRaml Spec

/-- The function returns, does not panic, and its verdict is `P`. -/
def Settled (f : Nat → Out Unit) (P : Prop) : Prop :=
  ∃ n, ∀ k, n ≤ k → (f k = .ok () ↔ P) ∧ ((∃ m, f k = .err m) ↔ ¬ P)

theorem settled_of {f : Nat → Out Unit} {P : Prop} (h : Settles f P) : Settled f P := by
  obtain ⟨n, hn⟩ := h
  exact ⟨n, fun k hk => ⟨(hn k hk).ok_iff, (hn k hk).err_iff⟩⟩

/-- What is assumed of the model being validated: references are to allocated shapes, recursion is marked, values are Go values. -/
structure Prepared (h : St) : Prop where
  closed : Closed h
  guarded : Guarded h
  facets : FacetsClosed h
  rooted : Rooted h
  values : RuntimeValues h

/-! ## C45 -/

/-- C45: in whatever order the declarations are visited, the custom facets of a type pass exactly when they are right. -/
theorem c45_facets_decided (E : Ext) {h : St} (hp : Prepared h) {ord : OMap Property → OMap Property} (ho : ∀ l, (ord l).Perm l)
    {a : Addr} {b : Base} (hb : h.base a = some b) :
    Settled (fun k => validateShapeFacets E h ord k b) (FacetsOK E h b) := by
  obtain ⟨l, hl⟩ := hp.rooted a b hb
  exact settled_of ((facets_settle E hp.closed hp.guarded hp.facets ho (hp.values a b hb) hl).congr (facetsOK_iff hl).symm)

/-- C45: a type passes the check of facets and examples exactly when it and all its components, at any depth, are right. -/
theorem c45_commons_decided (E : Ext) {h : St} (hp : Prepared h) {ord : OMap Property → OMap Property} (ho : ∀ l, (ord l).Perm l)
    {a : Addr} (ha : a < h.bases.length) (hn : NoInfiniteComponents h a) :
    Settled (fun k => validateCommons E h ord k a) (CommonsOK E h a) :=
  settled_of (commons_settle E hp.closed hp.guarded hp.facets hp.rooted hp.values ho (acc_of_noInfiniteComponents hn) ha)

/-- C45, where the code falls short: when two ancestors declare a facet of one name, a value is held only against the declaration
of the farther one.  A value the nearer declaration rejects passes. -/
theorem c45_nearer_declaration_ignored (E : Ext) {h : St} {b : Base} {near far : Property} (v : GoVal)
    (hl : ChainDefs h b.inherits [near, far]) (hname : near.name = far.name) (hfresh : h.props b.facetDefs = [])
    (hval : h.facetMap b.facets = [(far.name, v)]) : FacetsOK E h b ↔ Valid E h far.base v := by
  rw [facetsOK_iff hl]
  constructor
  · intro hR
    refine hR.typed far.name far v ⟨rfl, [near], [], rfl, by simp⟩ ⟨[], [], ?_, by simp⟩
    rw [hval]; rfl
  · intro hV
    have hdecl : ∀ k f, DeclaresFacet [near, far] k f → k = far.name ∧ f = far := by
      rintro k f ⟨rfl, pre, post, h1, h2⟩
      match pre, h1 with
      | [], h1 =>
        simp at h1; obtain ⟨rfl, rfl⟩ := h1
        exact absurd hname.symm (h2 far (by simp))
      | [_], h1 => simp at h1; exact ⟨by rw [h1.2.1], h1.2.1.symm⟩
      | _ :: _ :: pre, h1 => simp at h1
    refine ⟨by simp [hfresh], ?_, ?_, ?_⟩
    · intro k f hd _; obtain ⟨rfl, rfl⟩ := hdecl k f hd; exact ⟨v, by simp [hval]⟩
    · intro k f w hd hw
      obtain ⟨rfl, rfl⟩ := hdecl k f hd
      obtain ⟨pre, post, h1, _⟩ := hw
      have : (f.name, w) ∈ h.facetMap b.facets := by rw [h1]; simp
      rw [hval] at this; simp at this; rw [this]; exact hV
    · intro e he; rw [hval] at he; simp at he; subst he; exact ⟨far, by simp, rfl⟩

/-! ## C46 -/

/-- C46: the examples of a type pass exactly when the example, every inline example and the default belong to the type. -/
theorem c46_examples_decided (E : Ext) {h : St} (hp : Prepared h) {a : Addr} {b : Base} (hb : h.base a = some b) :
    Settled (fun k => validateExamples E h k a b) (ExamplesOK E h a b) :=
  settled_of (examples_settle E hp.closed hp.guarded (lt_of_get hb) (hp.values a b hb))

/-- C46: one example, inline example or default that does not belong to its type, anywhere among the components of a type,
makes the check of that type return an error. -/
theorem c46_bad_value_found (E : Ext) {h : St} (hp : Prepared h) {ord : OMap Property → OMap Property} (ho : ∀ l, (ord l).Perm l)
    {a y : Addr} {b : Base} (ha : a < h.bases.length) (hn : NoInfiniteComponents h a) (hy : WithComponents h a y)
    (hb : h.base y = some b) {v : GoVal} (hv : ¬ Valid E h y v)
    (hw : (∃ ex, b.example_ = some ex ∧ ex.data = v) ∨
      (∃ exs m e, b.examples = some exs ∧ exs.map = some m ∧ e ∈ m ∧ e.2.data = v) ∨ b.default = some v) :
    ∃ n, ∀ k, n ≤ k → ∃ m, validateCommons E h ord k a = .err m := by
  obtain ⟨n, hn⟩ := c45_commons_decided E hp ho ha hn
  refine ⟨n, fun k hk => (hn k hk).2.2 fun hC => hv ?_⟩
  obtain ⟨b', hb', _, hX⟩ := hC y hy
  rw [hb] at hb'; cases hb'
  rcases hw with ⟨ex, h1, rfl⟩ | ⟨exs, m, e, h1, h2, h3, rfl⟩ | h1
  · exact hX.example ex h1
  · exact hX.examples exs m h1 h2 e h3
  · exact hX.default v h1

/-- C46, where the code falls short: examples included as a NamedExample fragment are not looked at. -/
theorem c46_linked_examples_ignored (E : Ext) (h : St) (n : Nat) (a : Addr) (b : Base) (link link' : Option (OMap Example))
    (hb : b.examples = some ⟨none, link⟩) :
    validateExamples E h n a b = validateExamples E h n a { b with examples := some ⟨none, link'⟩ } ∧
    validateExamples E h n a b = validateExamples E h n a { b with examples := none } := by
  simp [validateExamples, hb]

/-! ## A concrete model -/

/-- A string type (0) declares a required integer facet `max` (type 3); another (1) derives from it and declares `note` (type 4);
a third (2) derives from that and has values; an object (5) has a property of type 2.  A library holds them; `limit` (type 3) is also
an annotation type, used once. -/
def exCommons : St :=
  { bases := [{ unwrapped := true, shape := some (.string {}), facetDefs := some 0 },
      { unwrapped := true, shape := some (.string {}), inherits := some 0, facetDefs := some 1, facets := some 1 },
      { unwrapped := true, shape := some (.string { minLength := some 2 }), inherits := some 1, facets := some 0, example_ := some { data := .str "ab" },
        examples := some { map := some [("e", { data := .str "abc" })] }, default := some (.str "zz") },
      { unwrapped := true, shape := some (.integer { minimum := some 1 }) },
      { unwrapped := true, shape := some (.string {}) },
      { unwrapped := true, shape := some (.object { properties := some 2 }) }]
    slices := [[0], [1]]
    pmaps := [[("max", ⟨"max", 3, true⟩)], [("note", ⟨"note", 4, false⟩)], [("p", ⟨"p", 2, true⟩)]]
    fmaps := [[("max", .int 7), ("note", .str "n")], [("max", .int 1)]]
    libs := [{ types := [("A", 0), ("B", 1), ("C", 2), ("O", 5)], annotationTypes := [("limit", 3)] }]
    fragments := [("api.raml", .library 0)]
    domainExts := [{ name := "limit", value := .int 5, definedBy := some 3 }] }

theorem exCommons_cases {a : Nat} {b : Base} (h : exCommons.base a = some b) :
    a = 0 ∨ a = 1 ∨ a = 2 ∨ a = 3 ∨ a = 4 ∨ a = 5 := by
  have : a < 6 := lt_of_get h
  omega

theorem exCommons_prepared : Prepared exCommons := by
  have c0 : ChainDefs exCommons none [] := .root _ rfl
  have c1 : ChainDefs exCommons (some 0) _ := .parent _ 0 [] _ _ rfl rfl c0
  have c2 : ChainDefs exCommons (some 1) _ := .parent _ 1 [] _ _ rfl rfl c1
  refine ⟨?_, ?_, ?_, ?_, ?_⟩
  · intro a b h
    rcases exCommons_cases h with rfl | rfl | rfl | rfl | rfl | rfl <;> cases h
    · exact ⟨_, rfl, trivial⟩
    · exact ⟨_, rfl, trivial⟩
    · exact ⟨_, rfl, trivial⟩
    · exact ⟨_, rfl, trivial⟩
    · exact ⟨_, rfl, trivial⟩
    · exact ⟨_, rfl, by decide, by decide⟩
  · refine ⟨fun _ => 0, ?_⟩
    have hk : ∀ a s, exCommons.shapeAt a = some s → (∀ u e, s ≠ .union u e) ∧ ∀ hd, s ≠ .recursive hd := by
      intro a s hs
      obtain ⟨b, hb1, hb2⟩ : ∃ b, exCommons.base a = some b ∧ b.shape = some s := by
        simpa [St.shapeAt, Option.bind_eq_some_iff] using hs
      rcases exCommons_cases hb1 with rfl | rfl | rfl | rfl | rfl | rfl <;> cases hb1 <;> cases hb2 <;> simp
    intro a
    exact ⟨fun u e hs => absurd rfl ((hk a _ hs).1 u e), fun hd hs => absurd rfl ((hk a _ hs).2 hd)⟩
  · intro a b h
    rcases exCommons_cases h with rfl | rfl | rfl | rfl | rfl | rfl <;> cases h <;> decide
  · intro a b h
    rcases exCommons_cases h with rfl | rfl | rfl | rfl | rfl | rfl <;> cases h
    · exact ⟨_, c0⟩
    · exact ⟨_, c1⟩
    · exact ⟨_, c2⟩
    · exact ⟨_, c0⟩
    · exact ⟨_, c0⟩
    · exact ⟨_, c0⟩
  · intro a b h
    have hnil : ∀ b : Base, b.facets = none → b.example_ = none → b.examples = none → b.default = none →
        RuntimeBase exCommons b := by
      intro b h1 h2 h3 h4
      refine ⟨by simp [h1, St.facetMap], by simp [h2], by simp [h3], by simp [h4]⟩
    rcases exCommons_cases h with rfl | rfl | rfl | rfl | rfl | rfl <;> cases h
    · exact hnil _ rfl rfl rfl rfl
    · refine ⟨?_, by simp, by simp, by simp⟩
      intro e he; simp [St.facetMap, exCommons] at he; subst he; exact .int _ (by norm_num) (by norm_num)
    · refine ⟨?_, ?_, ?_, ?_⟩
      · intro e he; simp [St.facetMap, exCommons] at he
        rcases he with rfl | rfl
        · exact .int _ (by norm_num) (by norm_num)
        · exact .str _
      · rintro _ ⟨⟩; exact .str _
      · rintro _ _ ⟨⟩ ⟨⟩ e he; simp at he; subst he; exact .str _
      · rintro _ ⟨⟩; exact .str _
    · exact hnil _ rfl rfl rfl rfl
    · exact hnil _ rfl rfl rfl rfl
    · exact hnil _ rfl rfl rfl rfl

theorem exCommons_finite (a : Addr) : NoInfiniteComponents exCommons a := by
  have rank : ∀ (a y : Nat), Component exCommons a y → [1, 1, 1, 0, 0, 2].getD y 0 < [1, 1, 1, 0, 0, 2].getD a 0 := by
    rintro a y ⟨b, hb, h1⟩
    rcases exCommons_cases hb with rfl | rfl | rfl | rfl | rfl | rfl <;> cases hb <;>
      rcases h1 with ⟨s, hs, he⟩ | ⟨e, he, rfl⟩
    all_goals first | (cases hs; cases he; done) | skip
    · simp [St.props, exCommons] at he; subst he; decide
    · simp [St.props, exCommons] at he; subst he; decide
    · simp [St.props, exCommons] at he
    · simp [St.props, exCommons] at he
    · simp [St.props, exCommons] at he
    · cases hs
      cases he with
      | property hp => simp [St.props, exCommons] at hp; subst hp; decide
      | pattern hp => simp [St.patProps] at hp
    · simp [St.props, exCommons] at he
  intro f _
  by_contra hcon
  have hall : ∀ n, Component exCommons (f n) (f (n + 1)) := fun n => by
    by_contra h'; exact hcon ⟨n, h'⟩
  have hdec : ∀ n : Nat, [1, 1, 1, 0, 0, 2].getD (f n) 0 + n ≤ 2 := by
    intro n
    induction n with
    | zero =>
      obtain ⟨b, hb, _⟩ := hall 0
      rcases exCommons_cases hb with h | h | h | h | h | h <;> rw [h] <;> decide
    | succ n ih =>
      have := rank _ _ (hall n)
      omega
  have := hdec 3
  omega

/-- The hypotheses of C45 and C46 are met; the model passes, and each of six mistakes in it is found. -/
example : Prepared exCommons ∧ (∀ a, NoInfiniteComponents exCommons a) ∧ WithComponents exCommons 5 2 ∧
    validateCommons exE exCommons id 6 5 = .ok () ∧
    (∃ m, validateCommons exE { exCommons with fmaps := [[("max", .int 0)], []] } id 6 5 = .err m) ∧
    (∃ m, validateCommons exE { exCommons with fmaps := [[("note", .str "n")], []] } id 6 5 = .err m) ∧
    (∃ m, validateCommons exE { exCommons with fmaps := [[("max", .int 7), ("other", .int 1)], []] } id 6 5 = .err m) ∧
    (∃ m, validateCommons exE { exCommons with pmaps := [[("max", ⟨"max", 3, true⟩)], [("max", ⟨"max", 3, true⟩)], []] } id 6 1 = .err m) ∧
    (∃ m, validateCommons exE { exCommons with bases := exCommons.bases.set 2 { shape := some (.string { minLength := some 2 }), default := some (.str "a") } } id 6 5 = .err m) ∧
    (∃ m, validateCommons exE { exCommons with bases := exCommons.bases.set 2 { shape := some (.string { minLength := some 2 }), examples := some { map := some [("e", { data := .str "" })] } } } id 6 5
        = .err m) := by
  refine ⟨exCommons_prepared, exCommons_finite, ?_, by decide +kernel, ⟨"value must be greater than", by decide +kernel⟩,
    ⟨"required custom facet is missing", by decide +kernel⟩, ⟨"unknown facet", by decide +kernel⟩,
    ⟨"duplicate custom facet", by decide +kernel⟩, ⟨"length must be greater than", by decide +kernel⟩,
    ⟨"length must be greater than", by decide +kernel⟩⟩
  exact .step ⟨_, rfl, Or.inl ⟨_, rfl, .property (p := ("p", ⟨"p", 2, true⟩)) (by decide)⟩⟩ (.refl 2)

/-- Two ancestors declare `max`, the nearer one as a string, the farther one as an integer: the integer 7 passes. -/
example : ∃ h : St, ∃ b : Base, ∃ near far : Property, ChainDefs h b.inherits [near, far] ∧ near.name = far.name ∧
    h.props b.facetDefs = [] ∧ h.facetMap b.facets = [(far.name, .int 7)] ∧ validateShapeFacets exE h id 4 b = .ok () ∧
    ∃ m, validate exE h 4 near.base (.int 7) = .err m := by
  let h : St := { bases := [{ shape := some (.string {}), facetDefs := some 0 },
      { shape := some (.string {}), inherits := some 0, facetDefs := some 1 },
      { shape := some (.integer {}) }, { shape := some (.string {}) }]
                  slices := [[0], [1]]
                  pmaps := [[("max", ⟨"max", 2, true⟩)], [("max", ⟨"max", 3, true⟩)]]
                  fmaps := [[("max", .int 7)]] }
  refine ⟨h, { shape := some (.string {}), inherits := some 1, facets := some 0 }, ⟨"max", 3, true⟩, ⟨"max", 2, true⟩, ?_, rfl, rfl,
    rfl, by decide +kernel, ⟨"invalid type", by decide +kernel⟩⟩
  have c0 : ChainDefs h none [] := .root _ rfl
  have c1 : ChainDefs h (some 0) _ := .parent _ 0 [] _ _ rfl rfl c0
  have c2 : ChainDefs h (some 1) _ := .parent _ 1 [] _ _ rfl rfl c1
  exact c2

end GoRaml.Props
