import Verif.Props.Schema

/-!
# C50: numbers, files and patterns; where types and their schemas differ
-/

namespace GoRaml.Props

open GoRaml GoRaml.Spec

/-! ## A type with numbers, a file, unique items and a pattern -/

def exWideHeap : St :=
  { bases := [{ name := "T", unwrapped := true, shape := some (.object { properties := some 0, patternProperties := some 0 }) },
      { name := "price", unwrapped := true, shape := some (.number { minimum := some (.fin (1/2)), enum := some [.float (.fin (5/2)), .float (.fin 3)] }) },
      { name := "doc", unwrapped := true, shape := some (.file { maxLength := some 9, fileTypes := some [.str "image/png"] }) },
      { name := "tags", unwrapped := true, shape := some (.array { items := some 4, uniqueItems := some true }) },
      { name := "items", unwrapped := true, shape := some .any },
      { name := "flag", unwrapped := true, shape := some (.boolean none) }]
    pmaps := [[("price", ⟨"price", 1, true⟩), ("doc", ⟨"doc", 2, false⟩), ("tags", ⟨"tags", 3, false⟩)]]
    ppmaps := [[("/^x-/", ⟨"^x-", 5⟩)]] }

theorem exWide_mem {y : Addr} (hy : SchemaReach exWideHeap 0 y) : y ∈ [0, 1, 2, 3, 4, 5] :=
  reach_mem (S := [0, 1, 2, 3, 4, 5]) (by decide) (by decide) hy

/-- A type without recursive references gets one definition, so names cannot clash. -/
theorem distinct_of_plain {h : St} {a : Addr} (hp : ∀ x, SchemaReach h a x → ∀ y, h.shapeAt x ≠ some (.recursive y)) : DistinctNames h a := by
  have key : ∀ y, DefinedBy h a y → y = a := by
    rintro y (rfl | ⟨x, hx, hs⟩)
    · rfl
    · exact absurd hs (hp x hx y)
  intro y z b c hy hz _ _ _
  rw [key y hy, key z hz]

/-- The hypotheses of C50 are met by this type if `^x-` matches none of its properties, and by a value of each kind. -/
example (E : Ext) (h1 : ∀ k ∈ ["price", "doc", "tags"], E.reMatch "^x-" k = false) (h2 : E.hash (.int 1) = some 7) (h3 : E.hash (.float (.fin 1)) = some 7)
    (h4 : E.hash (.str "a") = some 8) :
    Convertible E exWideHeap 0 ∧ DistinctNames exWideHeap 0 ∧ (∃ s, convert .raml exWideHeap 5 0 = .ok s) ∧
    Common E (Involved exWideHeap 0) (.map [("price", .float (.fin (5/2))), ("doc", .str "YQ=="), ("tags", .arr [.int 1, .str "a"]), ("x-1", .bool true)]) ∧
    Common E (Involved exWideHeap 0) (.map [("price", .int 3), ("tags", .arr [.int 1, .float (.fin 1)])]) := by
  have hT : ∀ f, ¬ Involved exWideHeap 0 (.integer f) := by
    rintro f ⟨y, hy, hs⟩
    have := exWide_mem hy
    simp only [List.mem_cons, List.not_mem_nil, or_false] at this
    rcases this with rfl | rfl | rfl | rfl | rfl | rfl <;> cases hs
  have hint : ∀ z : Int, -(2 ^ 53) ≤ z → z ≤ 2 ^ 53 → Common E (Involved exWideHeap 0) (.int z) := by
    intro z h5 h6
    refine .int z (by omega) (by omega) fun _ _ => ?_
    unfold Ext.toF64
    rw [if_pos ⟨h5, h6⟩]
  have hfl : ∀ q : Rat, Common E (Involved exWideHeap 0) (.float (.fin q)) := fun q => .float q fun f hf => absurd hf (hT f)
  have hstr : ¬ JsonSame (.int 1) (.str "a") := by
    intro hs
    cases jsonSame_number (.int 1) hs
  have hstr' : ¬ JsonSame (.str "a") (.int 1) := by
    intro hs
    cases jsonSame_str hs
  refine ⟨?_, distinct_of_plain ?_, ⟨_, by with_unfolding_all rfl⟩, ?_, ?_⟩
  · intro y hy
    have := exWide_mem hy
    simp only [List.mem_cons, List.not_mem_nil, or_false] at this
    rcases this with rfl | rfl | rfl | rfl | rfl | rfl <;> refine ⟨_, rfl, ?_⟩
    · refine ⟨by decide, ⟨?_, ?_, ?_⟩, by simp⟩
      · intro e he
        obtain rfl : e = ("/^x-/", ⟨"^x-", 5⟩) := by simpa [St.patProps, exWideHeap] using he
        decide
      · intro e he e' he' k _ _
        obtain rfl : e = ("/^x-/", ⟨"^x-", 5⟩) := by simpa [St.patProps, exWideHeap] using he
        obtain rfl : e' = ("/^x-/", ⟨"^x-", 5⟩) := by simpa [St.patProps, exWideHeap] using he'
        rfl
      · intro e he p hp
        obtain rfl : e = ("/^x-/", ⟨"^x-", 5⟩) := by simpa [St.patProps, exWideHeap] using he
        refine h1 _ ?_
        simp [St.props, exWideHeap] at hp
        rcases hp with rfl | rfl | rfl <;> simp
    · refine ⟨rfl, ?_, ?_, ?_⟩
      · rintro m ⟨⟩; exact ⟨_, rfl⟩
      · rintro m ⟨⟩
      · rintro l ⟨⟩; simp
    · trivial
    · trivial
    · trivial
    · simp [ConvertibleShape]
  · intro x hx y hs
    have := exWide_mem hx
    simp only [List.mem_cons, List.not_mem_nil, or_false] at this
    rcases this with rfl | rfl | rfl | rfl | rfl | rfl <;> cases hs
  · refine .map _ (by decide) fun e he => ?_
    simp only [List.mem_cons, List.not_mem_nil, or_false] at he
    rcases he with rfl | rfl | rfl | rfl
    · exact hfl _
    · exact .str _ (by decide)
    · refine .arr _ ?_ fun _ _ _ => ⟨?_, ?_⟩
      · intro x hx
        simp only [List.mem_cons, List.not_mem_nil, or_false] at hx
        rcases hx with rfl | rfl
        · exact hint _ (by norm_num) (by norm_num)
        · exact .str _ (by decide)
      · simp [h2, h4]
      · simp [h2, h4, hstr, hstr', JsonSame.refl]
    · exact .bool _
  · refine .map _ (by decide) fun e he => ?_
    simp only [List.mem_cons, List.not_mem_nil, or_false] at he
    rcases he with rfl | rfl
    · exact hint _ (by norm_num) (by norm_num)
    · refine .arr _ ?_ fun _ _ _ => ⟨?_, ?_⟩
      · intro x hx
        simp only [List.mem_cons, List.not_mem_nil, or_false] at hx
        rcases hx with rfl | rfl
        · exact hint _ (by norm_num) (by norm_num)
        · exact hfl _
      · simp [h2, h3]
      · have e1 : JsonNumber (.int 1) 1 := by exact_mod_cast JsonNumber.int 1
        simp [h2, h3, JsonSame.refl, JsonSame.number e1 (.float 1), JsonSame.number (.float 1) e1]

/-- A date type: its schema has only a format. -/
def exDateHeap : St := { bases := [{ name := "T", unwrapped := true, shape := some .dateOnly }] }

/-- The hypotheses of `c50_schema_accepts` are met by it, and those of `c50_same_values` are not. -/
example (E : Ext) (he : E.timeParse "2006-01-02" "2024-02-29" = true) : Covered E exDateHeap 0 ∧ ¬ Convertible E exDateHeap 0 ∧
    DistinctNames exDateHeap 0 ∧ (∃ s, convert .raml exDateHeap 5 0 = .ok s) ∧ Common E (Involved exDateHeap 0) (.str "2024-02-29") ∧
    Valid E exDateHeap 0 (.str "2024-02-29") := by
  have hm : ∀ y, SchemaReach exDateHeap 0 y → y = 0 := by
    intro y hy
    simpa using reach_mem (S := [0]) (h := exDateHeap) (by decide) (by decide) hy
  refine ⟨?_, ?_, distinct_of_plain ?_, ⟨_, by with_unfolding_all rfl⟩, .str _ (by decide), ?_⟩
  · intro y hy
    rw [hm y hy]
    exact ⟨_, rfl, trivial⟩
  · intro hc
    obtain ⟨s, hs, hk⟩ := hc 0 (.refl _)
    cases hs
    exact hk
  · intro x hx y hs
    rw [hm x hx] at hs
    cases hs
  · rw [valid_iff_step]
    exact ⟨_, rfl, he⟩

/-! ## Differences -/

/-- Acceptance by the schema of a type with one definition. -/
theorem single_valid {E : Ext} {t : JS} (ht : t.core.ref = "") (v : GoVal) :
    SchemaValid E (rootSchema "T" [("T", some t)]).definitions (rootSchema "T" [("T", some t)]) v ↔
      Asserts E (SchemaValid E [("T", some t)]) t v := by
  rw [schemaValid_step]
  unfold SchemaStep
  rw [if_neg (show (rootSchema "T" [("T", some t)]).core.ref ≠ "" from refTo_ne _)]
  have key : SchemaValid E [("T", some t)] t v ↔ Asserts E (SchemaValid E [("T", some t)]) t v := by
    rw [schemaValid_step]
    unfold SchemaStep
    rw [if_pos ht]
  constructor
  · rintro ⟨k, t', -, h2, h3⟩
    have : t' = t := by simpa [rootSchema] using (congrArg Prod.snd (List.mem_singleton.1 h2))
    subst this
    exact key.1 h3
  · intro ha
    exact ⟨"T", t, rfl, by simp [rootSchema], key.2 ha⟩

/-- An integer type. -/
def exWhole : St := { bases := [{ name := "T", unwrapped := true, shape := some (.integer {}) }] }

/-- C50: fractions are excluded for integer types for a reason: RAML validation cuts 1.5 to 1 and accepts it, the schema rejects it. -/
theorem c50_fraction_differs (E : Ext) : ∃ s, convert .plain exWhole 1 0 = .ok s ∧
    Valid E exWhole 0 (.float (.fin (3/2))) ∧ ¬ SchemaValid E s.definitions s (.float (.fin (3/2))) := by
  let t : JS := { core := { type := "integer" } }
  refine ⟨rootSchema "T" [("T", some t)], by with_unfolding_all rfl, ?_, ?_⟩
  · rw [valid_iff_step]
    refine Or.inl ⟨⟨by norm_num, by norm_num⟩, _, .floatPos _ (by norm_num), ⟨?_, ?_⟩, ?_⟩ <;> rintro _ ⟨⟩
  · rw [single_valid rfl]
    intro ha
    obtain ⟨z, hz⟩ := (hasType_inv (ha.type (by simp [t]))).2.2.1 rfl
    have h1 : ((3/2 : Rat)) = z := JsonNumber.unique (.float _) hz
    have h2 : ((3 : Int) : Rat) = ((2 * z : Int) : Rat) := by push_cast; linarith
    have h3 : (3 : Int) = 2 * z := by exact_mod_cast h2
    omega

/-- A number type whose enum is written with an integer. -/
def exIntEnum : St := { bases := [{ name := "T", unwrapped := true, shape := some (.number { enum := some [.int 1] }) }] }

/-- C50: an enum of a number type written with integers: the schema accepts the element, the type accepts nothing. -/
theorem c50_number_enum_differs (E : Ext) : ∃ s, convert .plain exIntEnum 1 0 = .ok s ∧
    SchemaValid E s.definitions s (.int 1) ∧ ∀ v, ¬ Valid E exIntEnum 0 v := by
  let t : JS := { core := { type := "number", enum := [.int 1] } }
  refine ⟨rootSchema "T" [("T", some t)], by with_unfolding_all rfl, ?_, ?_⟩
  · rw [single_valid rfl]
    refine ⟨fun _ => .number _ (.int 1), fun _ => ⟨.int 1, by simp [t], .refl _⟩, ?_, ?_, ?_, ?_, ?_, ?_, ?_, ?_, ?_, ?_, ?_, ?_, ?_, ?_, ?_, ?_, ?_⟩ <;> simp [t]
  · intro v hv
    rw [valid_iff_step] at hv
    obtain ⟨x, -, -, h3⟩ := hv
    have := (h3 _ rfl).2
    simp at this

/-- An integer type with `multipleOf`. -/
def exEven : St := { bases := [{ name := "T", unwrapped := true, shape := some (.integer { multipleOf := some (.fin 2) }) }] }

/-- C50: `multipleOf` is in the schema but not in RAML validation. -/
theorem c50_multipleOf_differs (E : Ext) : ∃ s, convert .plain exEven 1 0 = .ok s ∧
    Valid E exEven 0 (.int 3) ∧ ¬ SchemaValid E s.definitions s (.int 3) := by
  let t : JS := { core := { type := "integer", multipleOf := some (.float (.fin 2)) } }
  refine ⟨rootSchema "T" [("T", some t)], by with_unfolding_all rfl, ?_, ?_⟩
  · rw [valid_iff_step]
    refine Or.inl ⟨⟨by norm_num, by norm_num⟩, _, .int _, ⟨?_, ?_⟩, ?_⟩ <;> rintro _ ⟨⟩
  · rw [single_valid rfl]
    intro ha
    obtain ⟨k, hk⟩ := ha.multipleOf (.float (.fin 2)) 2 ((3 : Int) : Rat) rfl (.float 2) (.int 3)
    have h3 : (3 : Int) = k * 2 := by exact_mod_cast hk
    omega

/-- A closed object type with a pattern property. -/
def exClosedPattern : St :=
  { bases := [{ name := "T", unwrapped := true, shape := some (.object { patternProperties := some 0, additionalProperties := some false }) },
      { name := "x", unwrapped := true, shape := some .nil }]
    ppmaps := [[("/^x/", ⟨"^x", 1⟩)]] }

/-- C50: a closed object type rejects keys that match a pattern property, its schema accepts them. -/
theorem c50_closed_pattern_differs (E : Ext) (hm : E.reMatch "^x" "x" = true) : ∃ s, convert .plain exClosedPattern 2 0 = .ok s ∧
    SchemaValid E s.definitions s (.map [("x", .nil)]) ∧ ¬ Valid E exClosedPattern 0 (.map [("x", .nil)]) := by
  let n : JS := { core := { type := "null" } }
  let t : JS := { core := { type := "object", additionalProperties := some false }, patternProperties := some [("^x", some n)] }
  refine ⟨rootSchema "T" [("T", some t)], by with_unfolding_all rfl, ?_, ?_⟩
  · rw [single_valid rfl]
    have hn : SchemaValid E [("T", some t)] n .nil := by
      rw [schemaValid_step]
      unfold SchemaStep
      rw [if_pos (show n.core.ref = "" from rfl)]
      refine ⟨fun _ => .null, ?_, ?_, ?_, ?_, ?_, ?_, ?_, ?_, ?_, ?_, ?_, ?_, ?_, ?_, ?_, ?_, ?_, ?_⟩ <;> simp [n]
    refine ⟨fun _ => .object _, ?_, ?_, ?_, ?_, ?_, ?_, ?_, ?_, ?_, ?_, ?_, ?_, ?_, ?_, ?_, ?_, ?_, ?_⟩
    case refine_14 => simp [t, hm]
    case refine_18 =>
      rintro m ps ⟨⟩ ⟨⟩ k x r t' hk ht _
      obtain ⟨rfl, rfl⟩ : k = "x" ∧ x = .nil := by simpa using hk
      obtain ⟨rfl, rfl⟩ : r = "^x" ∧ t' = n := by simpa using ht
      exact hn
    all_goals simp [t]
  · intro hv
    rw [valid_iff_step] at hv
    obtain ⟨m, hm', -, -, -, h5⟩ := hv
    cases hm'
    exact (h5 "x" .nil (by simp) (by simp [St.props])).1 rfl

/-- An object type with two patterns that match `x`. -/
def exTwoPatterns : St :=
  { bases := [{ name := "T", unwrapped := true, shape := some (.object { patternProperties := some 0 }) },
      { name := "x", unwrapped := true, shape := some .nil },
      { name := "y", unwrapped := true, shape := some (.boolean none) }]
    ppmaps := [[("/^x/", ⟨"^x", 1⟩), ("/x$/", ⟨"x$", 2⟩)]] }

/-- C50: of several matching patterns RAML validation asks for one, the schema for all. -/
theorem c50_two_patterns_differ (E : Ext) (h1 : E.reMatch "^x" "x" = true) (h2 : E.reMatch "x$" "x" = true) :
    ∃ s, convert .plain exTwoPatterns 2 0 = .ok s ∧
      Valid E exTwoPatterns 0 (.map [("x", .nil)]) ∧ ¬ SchemaValid E s.definitions s (.map [("x", .nil)]) := by
  let n : JS := { core := { type := "null" } }
  let b : JS := { core := { type := "boolean" } }
  let t : JS := { core := { type := "object" }, patternProperties := some [("^x", some n), ("x$", some b)] }
  refine ⟨rootSchema "T" [("T", some t)], by with_unfolding_all rfl, ?_, ?_⟩
  · rw [valid_iff_step]
    refine ⟨_, rfl, ⟨by rintro _ ⟨⟩, by rintro _ ⟨⟩⟩, by simp [St.props], ?_, ?_⟩
    · rintro k x p - ⟨pre, post, h, -⟩
      simp [St.props] at h
    · intro k x hk _
      obtain ⟨rfl, rfl⟩ : k = "x" ∧ x = .nil := by simpa using hk
      refine ⟨by simp, Or.inr ⟨("/^x/", ⟨"^x", 1⟩), by simp [St.patProps, exTwoPatterns], h1, ?_⟩⟩
      rw [valid_iff_step]
      rfl
  · rw [single_valid rfl]
    intro ha
    have hb := ha.patternProperties _ _ rfl rfl "x" .nil "x$" b (by simp) (by simp) h2
    rw [schemaValid_step] at hb
    unfold SchemaStep at hb
    rw [if_pos (show b.core.ref = "" from rfl)] at hb
    obtain ⟨c, hc⟩ := (hasType_inv (hb.type (by simp [b]))).2.1 rfl
    cases hc

/-- An object type with a declared property that its pattern matches. -/
def exPatternOnDeclared : St :=
  { bases := [{ name := "T", unwrapped := true, shape := some (.object { properties := some 0, patternProperties := some 0 }) },
      { name := "x", unwrapped := true, shape := some .nil },
      { name := "y", unwrapped := true, shape := some (.boolean none) }]
    pmaps := [[("x", ⟨"x", 1, true⟩)]]
    ppmaps := [[("/^x/", ⟨"^x", 2⟩)]] }

/-- C50: RAML validation does not look at patterns for declared properties, the schema does. -/
theorem c50_declared_pattern_differs (E : Ext) (h1 : E.reMatch "^x" "x" = true) : ∃ s, convert .plain exPatternOnDeclared 2 0 = .ok s ∧
    Valid E exPatternOnDeclared 0 (.map [("x", .nil)]) ∧ ∀ v, ¬ SchemaValid E s.definitions s (.map [("x", v)]) := by
  let n : JS := { core := { type := "null" } }
  let b : JS := { core := { type := "boolean" } }
  let t : JS := { core := { type := "object", required := ["x"] }, properties := some [("x", some n)], patternProperties := some [("^x", some b)] }
  refine ⟨rootSchema "T" [("T", some t)], by with_unfolding_all rfl, ?_, ?_⟩
  · rw [valid_iff_step]
    refine ⟨_, rfl, ⟨by rintro _ ⟨⟩, by rintro _ ⟨⟩⟩, by simp [St.props, exPatternOnDeclared], ?_, ?_⟩
    · intro k x p hk hd
      obtain ⟨rfl, rfl⟩ : k = "x" ∧ x = .nil := by simpa using hk
      have hp : p = ⟨"x", 1, true⟩ := by
        have := mem_of_declares hd
        simpa [St.props, exPatternOnDeclared] using this
      subst hp
      rw [valid_iff_step]
      rfl
    · intro k x hk hno
      obtain ⟨rfl, rfl⟩ : k = "x" ∧ x = .nil := by simpa using hk
      exact absurd rfl (hno ("x", ⟨"x", 1, true⟩) (by simp [St.props, exPatternOnDeclared]))
  · intro v
    rw [single_valid rfl]
    intro ha
    have hn := ha.properties _ _ rfl rfl "x" v n (by simp) (by simp)
    have hb := ha.patternProperties _ _ rfl rfl "x" v "^x" b (by simp) (by simp) h1
    rw [schemaValid_step] at hb hn
    unfold SchemaStep at hb hn
    rw [if_pos (show b.core.ref = "" from rfl)] at hb
    rw [if_pos (show n.core.ref = "" from rfl)] at hn
    obtain ⟨c, rfl⟩ := (hasType_inv (hb.type (by simp [b]))).2.1 rfl
    cases (hasType_inv (hn.type (by simp [n]))).1 rfl

/-- What the hypotheses on patterns ask for is met. -/
example : ∃ E : Ext, E.reMatch "^x" "x" = true ∧ E.reMatch "x$" "x" = true :=
  ⟨⟨fun _ _ => true, fun _ => true, fun _ _ => true, fun _ => none, fun _ => 0, fun _ => .nan, fun _ => none⟩, rfl, rfl⟩

end GoRaml.Props
