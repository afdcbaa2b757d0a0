import Verif.Lemmas.SchemaSem
import Verif.Lemmas.SchemaTotal
import Verif.Lemmas.Commons
import Verif.Props.Validate

/-!
# C48 - C51, C56, C57: JSON Schema conversion
-/

namespace GoRaml.Props

open GoRaml GoRaml.Spec

/-- C48: every `$ref` in a converted schema, at any depth and in any definition, points to a schema in its definitions. -/
theorem c48_refs_resolve {w : Wrap} {h : St} {n : Nat} {a : Addr} {s : JS} (hne : NoEmbedded h a) (hc : convert w h n a = .ok s) :
    RefsResolve s.definitions s := by
  obtain ⟨b, D, rfl, hcv⟩ := convert_converted hc
  exact converted_refs hne hcv

/-! A model for the examples: `T` has an integer, a string, a union and a list of `T`. -/

def exSchemaHeap : St :=
  { bases := [{ name := "T", unwrapped := true, shape := some (.object { properties := some 0, additionalProperties := some false }) },
      { name := "id", unwrapped := true, shape := some (.integer { minimum := some 1, enum := some [.int 1, .int 2] }) },
      { name := "name", unwrapped := true, shape := some (.string { maxLength := some 3 }) },
      { name := "kids", unwrapped := true, shape := some (.array { items := some 4 }) },
      { name := "items", unwrapped := true, shape := some (.recursive 0) },
      { name := "opt", unwrapped := true, shape := some (.union (some 0) none) },
      { name := "nil", unwrapped := true, shape := some .nil },
      { name := "flag", unwrapped := true, shape := some (.boolean none), facetDefs := some 1 },
      { name := "limit", unwrapped := true, shape := some .any }]
    slices := [[6, 7]]
    pmaps := [[("id", ⟨"id", 1, true⟩), ("name", ⟨"name", 2, false⟩), ("kids", ⟨"kids", 3, true⟩), ("opt", ⟨"opt", 5, false⟩)],
      [("limit", ⟨"limit", 8, true⟩)]] }

def exSchemaReach : List Addr := [0, 1, 2, 3, 4, 5, 6, 7, 8]

theorem exSchema_mem {y : Addr} (hy : SchemaReach exSchemaHeap 0 y) : y ∈ exSchemaReach :=
  reach_mem (S := exSchemaReach) (by decide) (by decide) hy

theorem patternsApart_none {E : Ext} {h : St} {f : ObjectF} (hf : f.patternProperties = none) : PatternsApart E h f := by
  constructor <;> simp [hf, St.patProps]

theorem exSchema_convertible (E : Ext) : Convertible E exSchemaHeap 0 := by
  intro y hy
  have := exSchema_mem hy
  simp only [exSchemaReach, List.mem_cons, List.not_mem_nil, or_false] at this
  rcases this with rfl | rfl | rfl | rfl | rfl | rfl | rfl | rfl | rfl <;> refine ⟨_, rfl, ?_⟩ <;>
    simp [ConvertibleShape, WholeElement, patternsApart_none, St.slice, St.props, St.patProps, exSchemaHeap]

theorem exSchema_distinct : DistinctNames exSchemaHeap 0 := by
  have key : ∀ y, DefinedBy exSchemaHeap 0 y → y = 0 := by
    rintro y (rfl | ⟨x, hx, hs⟩)
    · rfl
    · have hx := exSchema_mem hx
      simp only [exSchemaReach, List.mem_cons, List.not_mem_nil, or_false] at hx
      rcases hx with rfl | rfl | rfl | rfl | rfl | rfl | rfl | rfl | rfl <;> cases hs
      rfl
  intro y z b c hy hz _ _ _
  rw [key y hy, key z hz]

/-- The hypotheses of C48 and C50 are met, and the conversion succeeds. -/
example (E : Ext) : NoEmbedded exSchemaHeap 0 ∧ Convertible E exSchemaHeap 0 ∧ DistinctNames exSchemaHeap 0 ∧
    ∃ s, convert .raml exSchemaHeap 5 0 = .ok s ∧ s.definitions.map (·.1) = ["T"] :=
  ⟨convertible_noEmbedded (exSchema_convertible E), exSchema_convertible E, exSchema_distinct, _, by with_unfolding_all rfl, by with_unfolding_all rfl⟩

/-- A type whose items are an embedded JSON schema with a definition of its own. -/
def exEmbedded : St :=
  { bases := [{ name := "T", unwrapped := true, shape := some (.array { items := some 1 }) },
      { name := "items", unwrapped := true,
        shape := some (.json "" (some { core := { ref := "#/definitions/x" }, definitions := [("x", some { core := { type := "string" } })] })) }] }

/-- C48: without the proviso it fails: references of an embedded JSON schema go to definitions that are not at the root. -/
theorem c48_embedded_dangles : ∃ s, convert .plain exEmbedded 2 0 = .ok s ∧ ¬ RefsResolve s.definitions s := by
  let e : JS := { core := { ref := "#/definitions/x" }, definitions := [("x", some { core := { type := "string" } })] }
  let t : JS := { core := { type := "array" }, items := some e }
  refine ⟨rootSchema "T" [("T", some t)], by with_unfolding_all rfl, fun hr => ?_⟩
  obtain ⟨k, d, h1, h2⟩ := hr e (.step (t := t) (.definitions (k := "T") (by simp [rootSchema])) (.step (.items rfl) (.refl _))) (by simp [e])
  have hk : k = "T" := by simpa [rootSchema] using (congrArg Prod.fst (List.mem_singleton.1 h2))
  subst hk
  exact absurd h1 (by decide)

/-- C49: the schema of an object type lists its properties in order, each with the schema of its type, and requires exactly the required ones. -/
theorem c49_object_schema {w : Wrap} {h : St} {n : Nat} {a y : Addr} {f : ObjectF} {r : Option JS} {D D' : Defs}
    (hs : h.shapeAt y = some (.object f)) (hy : SchemaReach h a y) (hdel : Delimited h f) (hv : visit w h n y D = (.ok r, D')) :
    ∃ s, r = some s ∧ ObjectSchema h f s ∧
      (∀ k p, (k, p) ∈ h.props f.properties → ∃ t n D1 D2, (k, t) ∈ s.properties.getD [] ∧ visit w h n p.base D1 = (.ok t, D2)) ∧
      (∀ k p, ("/" ++ k ++ "/", p) ∈ h.patProps f.patternProperties →
        ∃ t n D1 D2, (k, t) ∈ s.patternProperties.getD [] ∧ visit w h n p.base D1 = (.ok t, D2)) := by
  obtain ⟨-, hm⟩ := visit_ok w h a n _ _ _ _ hy hv
  obtain ⟨b, K', hb, -, hl⟩ := hm.level
  have hbs : b.shape = some (.object f) := by simpa [St.shapeAt, hb] using hs
  rw [hbs] at hl
  obtain ⟨x, ps, pps, -, rfl, h1, h2, h3, h4⟩ := hl
  have hps : EntriesFor (Made w h a K') ((h.props f.properties).map fun e => (e.1, e.2.base)) (ps.getD []) := by
    cases hp : f.properties with
    | none => rw [h1 hp]; exact .nil
    | some i =>
      obtain ⟨l, rfl, e⟩ := h2 (by simp [hp])
      rw [← hp]; exact e
  have hpps : List.Forall₂ (PatternFor (Made w h a K')) (h.patProps f.patternProperties) (pps.getD []) := by
    cases hp : f.patternProperties with
    | none => rw [h3 hp]; exact .nil
    | some i =>
      obtain ⟨l, rfl, e⟩ := h4 (by simp [hp])
      rw [← hp]; exact e
  have hkey : ∀ (l : List (String × Addr)) (m : List (String × Option JS)), EntriesFor (Made w h a K') l m → m.map (·.1) = l.map (·.1) := by
    intro l m hlm
    induction hlm with
    | nil => rfl
    | cons e _ ih => simp [e.1, ih]
  refine ⟨_, rfl, ⟨rfl, ?_, ?_, ?_, ?_, rfl, rfl, rfl⟩, ?_, ?_⟩
  · show (ps.getD []).map (·.1) = _
    rw [hkey _ _ hps]
    simp
  · exact (List.filter_sublist (l := h.props f.properties)).map _
  · intro k
    show k ∈ ((h.props f.properties).filter fun e => e.2.required).map (·.1) ↔ _
    simp
  · show (h.patProps f.patternProperties).map (·.1) = (pps.getD []).map _
    unfold Delimited at hdel
    generalize h.patProps f.patternProperties = l at hdel hpps
    generalize pps.getD [] = m at hpps
    clear h1 h2 h3 h4
    induction hpps with
    | nil => rfl
    | cons e _ ih =>
      simp only [List.map_cons]
      rw [ih fun e he => hdel e (by simp [he])]
      obtain ⟨q, hq⟩ := hdel _ (List.mem_cons_self ..)
      have e1 := e.1
      rw [hq, trimSlashes_delimited] at e1
      injection e1 with e1
      rw [hq, e1]
  · intro k p hp
    obtain ⟨⟨k', t⟩, hq, e1, -, n, D1, D2, e2, -⟩ := forall₂_left hps (k, p.base) (List.mem_map.2 ⟨(k, p), hp, rfl⟩)
    dsimp only at e1
    subst e1
    exact ⟨t, n, D1, D2, hq, e2⟩
  · intro k p hp
    obtain ⟨⟨k', t⟩, hq, e1, -, n, D1, D2, e2, -⟩ := forall₂_left hpps _ hp
    rw [trimSlashes_delimited] at e1
    cases e1
    exact ⟨t, n, D1, D2, hq, e2⟩

/-- The hypotheses of C49 are met: two of the four properties are required. -/
example : exSchemaHeap.shapeAt 0 = some (.object { properties := some 0, additionalProperties := some false }) ∧ SchemaReach exSchemaHeap 0 0 ∧
    Delimited exSchemaHeap { properties := some 0, additionalProperties := some false } ∧
    ∃ s D, visit .plain exSchemaHeap 5 0 [("T", none)] = (.ok (some s), D) ∧ s.core.required = ["id", "kids"] :=
  ⟨rfl, .refl _, by simp [Delimited, St.patProps], _, _, by with_unfolding_all rfl, by with_unfolding_all rfl⟩

/-- C50: a value of the common domain is accepted by the schema iff the type accepts it. -/
theorem c50_same_values {w : Wrap} {h : St} {n : Nat} {a : Addr} {s : JS} (E : Ext) (hcv : Convertible E h a) (hd : DistinctNames h a)
    (hc : convert w h n a = .ok s) {v : GoVal} (hv : Common E (Involved h a) v) : Valid E h a v ↔ SchemaValid E s.definitions s v := by
  obtain ⟨b, D, rfl, hcd⟩ := convert_converted hc
  exact converted_valid hcv hd hcd hv

/-- C50: validation of a value by the library and by a JSON Schema validator agree. -/
theorem c50_validation_agrees {w : Wrap} {h : St} {n m : Nat} {a : Addr} {s : JS} (E : Ext) (hcv : Convertible E h a) (hd : DistinctNames h a)
    (hc : convert w h n a = .ok s) {v : GoVal} (hv : Common E (Involved h a) v) (hg : GoValue v) :
    (validate E h m a v = .ok () → SchemaValid E s.definitions s v) ∧
    ((∃ e, validate E h m a v = .err e) → ¬ SchemaValid E s.definitions s v) := by
  have hs := validate_sound E h m a v hg
  have := c50_same_values E hcv hd hc hv
  refine ⟨fun h1 => this.1 ?_, fun h1 h2 => ?_⟩
  · exact (hs.1 h1)
  · obtain ⟨e, he⟩ := h1
    exact hs.2 e he (this.2 h2)

/-- C50: also for date and time types, for empty enums and unions, infinite bounds and closed objects with pattern properties: the schema never
rejects what the type accepts. -/
theorem c50_schema_accepts {w : Wrap} {h : St} {n : Nat} {a : Addr} {s : JS} (E : Ext) (hcv : Covered E h a) (hd : DistinctNames h a)
    (hc : convert w h n a = .ok s) {v : GoVal} (hv : Common E (Involved h a) v) (hval : Valid E h a v) : SchemaValid E s.definitions s v := by
  obtain ⟨b, D, rfl, hcd⟩ := convert_converted hc
  exact converted_accepts hcv hd hcd hv hval

/-- A string type for C50's proviso on values. -/
def exOneChar : St := { bases := [{ name := "T", unwrapped := true, shape := some (.string { maxLength := some 1 }) }] }

/-- C50: strings that are not ASCII are excluded for a reason: `maxLength` counts bytes in RAML validation and characters in the schema. -/
theorem c50_length_differs (E : Ext) : ∃ s, convert .plain exOneChar 1 0 = .ok s ∧ Convertible E exOneChar 0 ∧ DistinctNames exOneChar 0 ∧
    SchemaValid E s.definitions s (.str "é") ∧ ¬ Valid E exOneChar 0 (.str "é") := by
  have hreach : ∀ y, SchemaReach exOneChar 0 y → y = 0 := by
    intro y hy
    have := reach_mem (S := [0]) (h := exOneChar) (by decide) (by decide) hy
    simpa using this
  let t : JS := { core := { type := "string", maxLength := some 1 } }
  refine ⟨rootSchema "T" [("T", some t)], by with_unfolding_all rfl, ?_, ?_, ?_, ?_⟩
  · intro y hy
    rw [hreach y hy]
    exact ⟨_, rfl, by simp [ConvertibleShape]⟩
  · have key : ∀ y, DefinedBy exOneChar 0 y → y = 0 := by
      rintro y (rfl | ⟨x, hx, hs⟩)
      · rfl
      · rw [hreach x hx] at hs; cases hs
    intro y z b c hy hz _ _ _
    rw [key y hy, key z hz]
  · refine schemaValid_step.2 ?_
    unfold SchemaStep
    rw [if_neg (show (rootSchema "T" [("T", some t)]).core.ref ≠ "" from refTo_ne _)]
    refine ⟨"T", t, rfl, by simp [rootSchema], schemaValid_step.2 ?_⟩
    unfold SchemaStep
    rw [if_pos rfl]
    refine ⟨fun _ => .string _, ?_, ?_, ?_, ?_, ?_, ?_, ?_, ?_, ?_, ?_, ?_, ?_, ?_, ?_, ?_, ?_, ?_, ?_⟩ <;> simp [t]
    decide
  · intro hv
    rw [valid_iff_step] at hv
    obtain ⟨s, hs, hb, -⟩ := hv
    cases hs
    have := hb.2 1 rfl
    revert this
    decide +kernel

/-- C56: conversion of a type whose components end, with a wrapper, returns a schema. -/
theorem c56_conversion_succeeds {w : Wrap} {h : St} {a : Addr} {b : Base} (hw : w ≠ .unset) (hb : h.base a = some b) (hu : b.unwrapped = true)
    (hwr : ∀ y, SchemaReach h a y → ∃ s, h.shapeAt y = some s ∧ Writable h s) (hfin : ∀ y, SchemaReach h a y → NoInfiniteComponents h y) :
    ∃ n s, ∀ k, n ≤ k → convert w h k a = .ok s :=
  convert_halts hw ⟨hwr, fun y hy => acc_of_noInfiniteComponents (hfin y hy)⟩ hb hu

/-- The hypotheses of C56 are met by a recursive type. -/
example : Wrap.raml ≠ .unset ∧ (∃ b, exSchemaHeap.base 0 = some b ∧ b.unwrapped = true) ∧
    (∀ y, SchemaReach exSchemaHeap 0 y → ∃ s, exSchemaHeap.shapeAt y = some s ∧ Writable exSchemaHeap s) ∧
    (∀ y, SchemaReach exSchemaHeap 0 y → NoInfiniteComponents exSchemaHeap y) := by
  refine ⟨by decide, ⟨_, rfl, rfl⟩, fun y hy => ?_, fun y hy => ?_⟩
  · have := exSchema_mem hy
    simp only [exSchemaReach, List.mem_cons, List.not_mem_nil, or_false] at this
    rcases this with rfl | rfl | rfl | rfl | rfl | rfl | rfl | rfl | rfl <;> refine ⟨_, rfl, ?_⟩ <;>
      simp [Writable, St.patProps]
  · exact noInfinite_of_rank (S := exSchemaReach) (fun x => [5, 0, 0, 1, 0, 4, 0, 1, 0].getD x 0) (by decide) (exSchema_mem hy)

/-- C56: a type that is not unwrapped is refused, whatever it holds. -/
theorem c56_not_unwrapped (w : Wrap) {h : St} (n : Nat) {a : Addr} {b : Base} (hb : h.base a = some b) (hu : b.unwrapped = false) :
    ∃ e, convert w h n a = .err e := by
  refine ⟨"entrypoint shape must be unwrapped", ?_⟩
  unfold convert
  rw [hb]
  simp [hu]

example : ∃ b, ({ bases := [{ name := "T", shape := some .any }] } : St).base 0 = some b ∧ b.unwrapped = false := ⟨_, rfl, rfl⟩

/-- C57: a converter made without the wrapper option never returns a schema, for any type. -/
theorem c57_no_wrapper (h : St) (n : Nat) (a : Addr) (s : JS) : convert .unset h n a ≠ .ok s := by
  intro hc
  obtain ⟨b, D, -, hcd⟩ := convert_converted hc
  exact hcd.wrap rfl

/-- C57: for every resolved unwrapped type it panics. -/
theorem c57_no_wrapper_panics {h : St} (n : Nat) {a : Addr} {b : Base} {s : Shape} (hb : h.base a = some b) (hu : b.unwrapped = true)
    (hs : b.shape = some s) (hun : ∀ f, s ≠ .unknown f) : ∃ e, convert .unset h (n + 1) a = .panic e := by
  refine ⟨"interface conversion", ?_⟩
  unfold convert
  rw [hb]
  simp only [hu, if_true, visit, hb, hs]
  cases s <;> first | rfl | exact absurd rfl (hun _)

example : ∃ b s, exSchemaHeap.base 0 = some b ∧ b.unwrapped = true ∧ b.shape = some s ∧ ∀ f, s ≠ .unknown f :=
  ⟨_, _, rfl, rfl, rfl, by simp⟩

/-- C51: the property is false of the code.  A reference to a recursive type whose name is taken becomes a reference to the definition of the type
that took it, and the recursive type is not converted. -/
theorem c51_name_taken {w : Wrap} (hw : w ≠ .unset) {h : St} (n : Nat) {y hd : Addr} {b : Base} {D : Defs}
    (hs : h.shapeAt y = some (.recursive hd)) (hb : h.base hd = some b) (hsh : b.shape ≠ none) (hk : ∃ x, (b.name, x) ∈ D) :
    visit w h (n + 1) y D = (.ok (some { core := { ref := "#/definitions/" ++ b.name } }), D) := by
  obtain ⟨by', hby, hbs⟩ : ∃ b, h.base y = some b ∧ b.shape = some (.recursive hd) := by
    simpa [St.shapeAt, Option.bind_eq_some_iff] using hs
  obtain ⟨x, hx⟩ := hk
  obtain ⟨x', hx'⟩ := Defs.mem_keys.1 (List.mem_map.2 ⟨_, hx, rfl⟩ : b.name ∈ Defs.keys D)
  have hwn : wrapNode w (visit w h n) h {} none D = (.ok {}, D) := by
    cases w with
    | unset => exact absurd rfl hw
    | plain => rfl
    | raml => rfl
  have hn : b.shape.isNone = false := by
    cases hbs : b.shape with
    | none => exact absurd hbs hsh
    | some s => rfl
  simp only [visit, hby, hbs]
  show M.bind (visitRecursive w (visit w h n) h hd) _ D = _
  have : visitRecursive w (visit w h n) h hd D = (.ok { core := { ref := refTo b.name } }, D) := by
    unfold visitRecursive
    rw [M.bind_of_ok hwn, hb]
    simp [hn, M.bind, M.get, hx', M.ret]
  rw [M.bind_of_ok this]
  rfl

/-! Two recursive types of the same name, say from two libraries: in the second one `k` is required. -/

def exClash : St :=
  { bases := [{ name := "T", unwrapped := true, shape := some (.object { properties := some 0 }) },
      { name := "node", unwrapped := true, shape := some (.object { properties := some 1 }) },
      { name := "next", unwrapped := true, shape := some (.recursive 1) },
      { name := "node", unwrapped := true, shape := some (.object { properties := some 2 }) },
      { name := "next", unwrapped := true, shape := some (.recursive 3) },
      { name := "k", unwrapped := true, shape := some (.integer {}) }]
    pmaps := [[("x", ⟨"x", 1, false⟩), ("y", ⟨"y", 3, false⟩)], [("next", ⟨"next", 2, false⟩)],
      [("k", ⟨"k", 5, true⟩), ("next", ⟨"next", 4, false⟩)]] }

def exClashRef : JS := { core := { ref := "#/definitions/node" } }
def exClashA : JS := { core := { type := "object" }, properties := some [("next", some exClashRef)] }
def exClashK : JS := { core := { type := "integer" } }
def exClashB : JS := { core := { type := "object", required := ["k"] }, properties := some [("k", some exClashK), ("next", some exClashRef)] }
def exClashT : JS := { core := { type := "object" }, properties := some [("x", some exClashA), ("y", some exClashB)] }
def exClashDefs : Defs := [("T", some exClashT), ("node", some exClashA)]

/-- The hypotheses of `c51_name_taken` are met by the second type. -/
example : exClash.shapeAt 4 = some (.recursive 3) ∧ (∃ b, exClash.base 3 = some b ∧ b.shape ≠ none ∧ ∃ x, (b.name, x) ∈ exClashDefs) :=
  ⟨rfl, _, rfl, by simp, some exClashA, by simp [exClashDefs]⟩

/-- C51: two recursive types with one name share a definition, and the schema accepts a value the type rejects. -/
theorem c51_collision (E : Ext) : ∃ s v, convert .plain exClash 6 0 = .ok s ∧ Convertible E exClash 0 ∧ Common E (Involved exClash 0) v ∧
    SchemaValid E s.definitions s v ∧ ¬ Valid E exClash 0 v := by
  refine ⟨rootSchema "T" exClashDefs, .map [("y", .map [("k", .int 1), ("next", .map [])])], by with_unfolding_all rfl, ?_, ?_, ?_, ?_⟩
  · intro y hy
    have := reach_mem (S := [0, 1, 2, 3, 4, 5]) (h := exClash) (by decide) (by decide) hy
    simp only [List.mem_cons, List.not_mem_nil, or_false] at this
    rcases this with rfl | rfl | rfl | rfl | rfl | rfl <;> refine ⟨_, rfl, ?_⟩ <;> simp [ConvertibleShape, patternsApart_none, St.props, St.patProps, exClash]
  · have c0 : Common E (Involved exClash 0) (.map []) := .map _ (by simp) (by simp)
    refine .map _ (by simp) fun e he => ?_
    simp at he
    subst he
    refine .map _ (by simp) fun e he => ?_
    simp at he
    rcases he with rfl | rfl
    · refine .int _ (by norm_num) (by norm_num) ?_
      rintro f ⟨y, hy, hs⟩
      have := reach_mem (S := [0, 1, 2, 3, 4, 5]) (h := exClash) (by decide) (by decide) hy
      simp only [List.mem_cons, List.not_mem_nil, or_false] at this
      rcases this with rfl | rfl | rfl | rfl | rfl | rfl <;> cases hs
    · exact c0
  · have hA : SchemaValid E exClashDefs exClashA (.map []) := by
      refine schemaValid_step.2 ?_
      unfold SchemaStep
      rw [if_pos (show exClashA.core.ref = "" from rfl)]
      refine ⟨fun _ => .object _, ?_, ?_, ?_, ?_, ?_, ?_, ?_, ?_, ?_, ?_, ?_, ?_, ?_, ?_, ?_, ?_, ?_, ?_⟩ <;> simp [exClashA]
    have hK : SchemaValid E exClashDefs exClashK (.int 1) := by
      refine schemaValid_step.2 ?_
      unfold SchemaStep
      rw [if_pos (show exClashK.core.ref = "" from rfl)]
      refine ⟨fun _ => .integer 1 (.int 1), ?_, ?_, ?_, ?_, ?_, ?_, ?_, ?_, ?_, ?_, ?_, ?_, ?_, ?_, ?_, ?_, ?_, ?_⟩ <;> simp [exClashK]
    have hR : SchemaValid E exClashDefs exClashRef (.map []) := by
      refine schemaValid_step.2 ?_
      unfold SchemaStep
      rw [if_neg (by simp [exClashRef])]
      exact ⟨"node", exClashA, by decide, by simp [exClashDefs], hA⟩
    have hB : SchemaValid E exClashDefs exClashB (.map [("k", .int 1), ("next", .map [])]) := by
      refine schemaValid_step.2 ?_
      unfold SchemaStep
      rw [if_pos (show exClashB.core.ref = "" from rfl)]
      refine ⟨fun _ => .object _, ?_, ?_, ?_, ?_, ?_, ?_, ?_, ?_, ?_, ?_, ?_, ?_, ?_, ?_, ?_, ?_, ?_, ?_⟩ <;> simp [exClashB]
      · intro k x t h1 h2
        rcases h1 with ⟨rfl, rfl⟩ | ⟨rfl, rfl⟩ <;> rcases h2 with ⟨h, rfl⟩ | ⟨h, rfl⟩ <;> first | exact hK | exact hR | exact absurd h (by decide)
    have hT : SchemaValid E exClashDefs exClashT (.map [("y", .map [("k", .int 1), ("next", .map [])])]) := by
      refine schemaValid_step.2 ?_
      unfold SchemaStep
      rw [if_pos (show exClashT.core.ref = "" from rfl)]
      refine ⟨fun _ => .object _, ?_, ?_, ?_, ?_, ?_, ?_, ?_, ?_, ?_, ?_, ?_, ?_, ?_, ?_, ?_, ?_, ?_, ?_⟩ <;> simp [exClashT]
      · rintro k x t rfl rfl h2
        rcases h2 with ⟨h, rfl⟩ | ⟨h, rfl⟩ <;> first | exact hB | exact absurd h (by decide)
    refine schemaValid_step.2 ?_
    unfold SchemaStep
    rw [if_neg (show (rootSchema "T" exClashDefs).core.ref ≠ "" from refTo_ne _)]
    exact ⟨"T", exClashT, rfl, by simp [exClashDefs, rootSchema], hT⟩
  · intro hv
    rw [valid_iff_step] at hv
    obtain ⟨m, hm, -, -, h1, -⟩ := hv
    cases hm
    have h2 := h1 "y" (.map [("k", .int 1), ("next", .map [])]) ⟨"y", 3, false⟩ (by simp) ⟨[("x", ⟨"x", 1, false⟩)], [], rfl, by simp⟩
    rw [valid_iff_step] at h2
    obtain ⟨m, hm, -, -, h3, -⟩ := h2
    cases hm
    have h4 := h3 "next" (.map []) ⟨"next", 4, false⟩ (by simp) ⟨[("k", ⟨"k", 5, true⟩)], [], rfl, by simp⟩
    rw [valid_iff_step] at h4
    change Valid E exClash 3 _ at h4
    rw [valid_iff_step] at h4
    obtain ⟨m, hm, -, h5, -⟩ := h4
    cases hm
    obtain ⟨x, hx⟩ := h5 ("k", ⟨"k", 5, true⟩) (by simp [St.props, exClash]) rfl
    cases hx

/-- C51: types with different names get different definitions: with distinct names, every definition is the schema of the type of that name. -/
theorem c51_distinct_names {w : Wrap} {h : St} {n : Nat} {a : Addr} {s : JS} (hd : DistinctNames h a) (hc : convert w h n a = .ok s) :
    ∀ y b x, DefinedBy h a y → h.base y = some b → (b.name, x) ∈ s.definitions → ∃ m D D', visit w h m y D = (.ok x, D') := by
  obtain ⟨b0, D, rfl, hcd⟩ := convert_converted hc
  intro y b x hy hb hx
  obtain ⟨hd', b', q1, q2, q3, -, m, D1, D2, q4, -⟩ := hcd.entries _ _ hx
  have : hd' = y := hd _ _ _ _ q1 hy q2 hb q3
  subst this
  exact ⟨m, D1, D2, q4⟩

end GoRaml.Props
