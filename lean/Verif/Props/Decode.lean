import Verif.Lemmas.ReadParse
import Verif.Props.UnwrapAll

/-!
# A parsed model says what its files say (C63)

The specification is `Spec/Decode.lean`.
-/

namespace GoRaml.Props

open GoRaml GoRaml.Spec

section
variable (E : Env) (n m : Nat) (path : String) (f : FragRef) (s : St)

/-- C63: every library of a parsed model is what its file says: it declares exactly the types and annotation types of the file, in order, each with the
facets, properties, annotations and examples that its declaration gives, and uses the libraries the file names. -/
theorem c63_libraries (h : parseFromPath E n m path {} = (.ok f, s)) : ∀ l ∈ s.libs, LibraryReads E (Describes E s) l := fun l hl => by
  obtain ⟨j, hj⟩ := List.mem_iff_getElem?.1 hl
  exact Read.LibraryReads.mono (fun _ _ _ _ => Read.describes (parsed_loaded E n m path f s h)) ((Read.parseFromPath_reads h).new.libs j l (Nat.zero_le _) hj)

/-- C63: every data type of a parsed model is what its file says. -/
theorem c63_dataTypes (h : parseFromPath E n m path {} = (.ok f, s)) : ∀ d ∈ s.dts, DataTypeReads E (Describes E s) d := fun d hd => by
  obtain ⟨j, hj⟩ := List.mem_iff_getElem?.1 hd
  exact Read.DataTypeReads.mono (fun _ _ _ _ => Read.describes (parsed_loaded E n m path f s h)) ((Read.parseFromPath_reads h).new.dts j d (Nat.zero_le _) hj)

/-- C63: every registered NamedExample fragment has the examples that its file gives. -/
theorem c63_namedExamples (h : parseFromPath E n m path {} = (.ok f, s)) :
    ∀ p i, getFragment s p = some (.namedExample i) → ∃ ex, s.nes[i]? = some ex ∧ FileExamples E p ex := (Read.parseFromPath_reads h).nes

/-- C63: the fragment that a parse returns is what the given file says. -/
theorem c63_entry (h : parseFromPath E n m path {} = (.ok f, s)) :
    match f with
    | .library i => ∃ l, s.libs[i]? = some l ∧ l.location = path ∧ LibraryReads E (Describes E s) l
    | .dataType i => ∃ d, s.dts[i]? = some d ∧ d.location = path ∧ DataTypeReads E (Describes E s) d
    | .namedExample i => ∃ ex, s.nes[i]? = some ex ∧ FileExamples E path ex := by
  obtain ⟨h1, _, h4⟩ := Load.parseFromPath_entry h
  cases f with
  | library i => obtain ⟨l, q1, q2⟩ := h1; exact ⟨l, q1, q2, c63_libraries E n m path _ s h l (List.mem_of_getElem? q1)⟩
  | dataType i => obtain ⟨l, q1, q2⟩ := h1; exact ⟨l, q1, q2, c63_dataTypes E n m path _ s h l (List.mem_of_getElem? q1)⟩
  | namedExample i => exact c63_namedExamples E n m path _ s h path i (h4 i rfl)

/-- What a type says, one level down. -/
theorem describes_parts {E : Env} {s : St} {loc : String} {v : YNode} {name : String} {a : Addr} (h : Describes E s loc v name a) :
    TypeReads E s loc (Describes E s loc) v name a := by
  have mono : ∀ {R R' : YNode → String → Addr → Prop}, (∀ v n a, R v n a → R' v n a) → ∀ {v n a}, TypeReads E s loc R v n a → TypeReads E s loc R' v n a := by
    intro R R' hR v n a h
    obtain ⟨b, es, t, facets, src, h1, h2, h3, h4, h5, h6, h7⟩ := h
    exact ⟨b, es, t, facets, src, h1, h2, h3, h4, Read.Heading.carry (.refl hR) rfl (.refl s) h5, h6, Read.SourceReads.mono hR h7⟩
  exact h _ fun v n a hs => mono (fun v n a h R hR => hR _ _ _ (mono (fun v n a hd => hd R hR) h)) hs

/-- C63, for one type: the library has a type `k` if and only if its `types` section has an entry `k`, and the type is what the last such entry says. -/
theorem c63_declared (h : parseFromPath E n m path {} = (.ok f, s)) {l : Lib} (hl : l ∈ s.libs) {d sec : YNode} (hd : Document E l.location d)
    (hsec : lastOf "types" ((entriesOf (docRoot d).content).filter fun e => e.2.tag ≠ "!!null") = some sec) (k : String) :
    (∀ v, lastOf k (entriesOf sec.content) = some v → ∃ a, OMap.get l.types k = some a ∧ Describes E s l.location v k a) ∧
    (∀ a, OMap.get l.types k = some a → ∃ v, lastOf k (entriesOf sec.content) = some v ∧ Describes E s l.location v k a) := by
  obtain ⟨d', ⟨text, k1, k2⟩, k3, _⟩ := c63_libraries E n m path f s h l hl
  obtain ⟨text', k4, k5⟩ := hd
  rw [k1] at k4; cases k4; rw [k2] at k5; cases k5
  simp only [SectionReads, Reads, hsec] at k3
  exact Read.lists_get (Q := fun e x => Describes E s l.location e.2 e.1 x) k3 k

/-- C63, for one type given by a keyword: a type declared as a mapping whose `type` is a keyword has this type, the facets that the other entries of the mapping
give, and all custom facets. -/
theorem c63_keyword {E : Env} {s : St} {loc : String} {v t : YNode} {name : String} {a : Addr} (h : Describes E s loc v name a) (hv : v.kind = .mapping)
    (ht : lastOf "type" (entriesOf v.content) = some t) (hs : t.kind = .scalar) (htag : t.tag = "!!str") (hk : t.value ∈ keywords) :
    ∃ b sh, s.base a = some b ∧ b.name = name ∧ b.location = loc ∧ b.type = t.value ∧ b.shape = some sh ∧ Kind sh = Kind (emptyShape t.value) ∧
      FacetsRead E s loc (Describes E s loc) True (entriesOf (facetNodes v.content)) sh ∧
      CustomRead E loc t.value (entriesOf (facetNodes v.content)) (s.facetMap b.facets) := by
  obtain ⟨b, es, t', facets, src, h1, h2, h3, h4, h5, h6, h7⟩ := describes_parts h
  unfold Parts at h4
  rw [if_pos hv] at h4
  obtain ⟨rfl, rfl, rfl⟩ := h4
  rw [ht] at h6
  have hsrc : src = .named t.value := by
    cases h6 with
    | empty _ _ hz => rw [hz] at hk; simp [keywords] at hk
    | null _ hz => rw [hz] at htag; simp at htag
    | keyword => rfl
    | json _ _ hz =>
      simp only [keywords, List.mem_cons, List.not_mem_nil, or_false] at hk
      rcases hk with hk | hk | hk | hk | hk | hk | hk | hk | hk | hk | hk | hk | hk | hk | hk <;> (rw [hk] at hz; simp at hz)
    | expr _ _ _ _ hz => exact absurd hk hz
    | included _ hz => rw [hz] at htag; simp at htag
    | parents hz => rw [hz] at hs; simp at hs
  subst hsrc
  obtain ⟨k1, ⟨sh, k2, k3, _⟩, k4, k5⟩ := h7
  exact ⟨b, sh, h1, h2, h3, k1, k2, k1 ▸ k3, k4 sh k2, k5⟩

/-- C63, for a string type: its length limits, pattern and enum are what the last entry with the key says, and absent without one. -/
theorem c63_string {E : Env} {s : St} {loc : String} {v t : YNode} {name : String} {a : Addr} (h : Describes E s loc v name a) (hv : v.kind = .mapping)
    (ht : lastOf "type" (entriesOf v.content) = some t) (hs : t.kind = .scalar) (htag : t.tag = "!!str") (hk : t.value = "string") :
    ∃ b sf, s.base a = some b ∧ b.shape = some (.string sf) ∧ (match lastOf "minLength" (entriesOf (facetNodes v.content)) with
      | none => sf.minLength = none
      | some x => E.decodeUint x = some sf.minLength) ∧ (match lastOf "maxLength" (entriesOf (facetNodes v.content)) with
      | none => sf.maxLength = none
      | some x => E.decodeUint x = some sf.maxLength) ∧ (match lastOf "pattern" (entriesOf (facetNodes v.content)) with
      | none => sf.pattern = none
      | some x => sf.pattern = some x.value) := by
  obtain ⟨b, sh, h1, _, _, _, h2, h3, h4, _⟩ := c63_keyword h hv ht hs htag (by rw [hk]; simp [keywords])
  rw [hk] at h3
  cases sh with
  | string sf => exact ⟨b, sf, h1, h2, h4.1, h4.2.1, h4.2.2.1⟩
  | _ => simp [Kind, emptyShape] at h3

end

/-- A library with types of several forms. -/
def exShop : List (String × String × YNode) := [
  ("a.raml", "#%RAML 1.0 Library\na", exDoc [
    ("types", exMap [
      ("Code", exMap [("type", .str "string"), ("minLength", .str "1"), ("maxLength", .str "8"), ("pattern", .str "^a"), ("unit", .str "x")]),
      ("Item", exMap [("description", .str "an item"), ("properties", exMap [("code", .str "Code"), ("note?", .str "string"), ("/^x-/", .str "integer")]),
        ("additionalProperties", .str "false"), ("example", exMap [("value", exMap [("code", .str "a1")]), ("strict", .str "false")])]),
      ("Items", exMap [("type", .str "Item[]"), ("maxItems", .str "9")]),
      ("Code", exMap [("type", .str "string"), ("maxLength", .str "4")])])])]

/-- Numbers in these files have one digit. -/
def exShopEnv : Env := { exFilesEnv exShop with decodeUint := fun v => v.value.toList.head?.map fun c => some (c.toNat - 48) }

/-- The model they parse to. -/
def exShopModel : St := (parseFromPath exShopEnv 20 20 "a.raml" {}).2

/-- The files are parsed; of the two declarations of `Code` the last one counts, but it stays the first in order. -/
theorem exShop_parses : parseFromPath exShopEnv 20 20 "a.raml" {} = (.ok (.library 0), exShopModel) := by
  have h : exResult (parseFromPath exShopEnv 20 20 "a.raml" {}) = some (.library 0) := by decide +kernel
  unfold exShopModel
  cases hd : parseFromPath exShopEnv 20 20 "a.raml" {} with
  | mk o t =>
    rw [hd] at h
    cases o <;> simp_all [exResult]

example : exShopModel.libs.map (·.types) = [[("Code", 6), ("Item", 1), ("Items", 5)]] := by decide +kernel

/-- The limits of a string type. -/
def exLimits (s : St) (a : Addr) : List (Option Nat) :=
  match (s.base a).bind (·.shape) with
  | some (.string f) => [f.minLength, f.maxLength]
  | _ => []

/-- The properties of an object type. -/
def exProps (s : St) (a : Addr) : List (String × Bool) :=
  match (s.base a).bind (·.shape) with
  | some (.object f) => (s.props f.properties).map fun e => (e.1, e.2.required)
  | _ => []

example : exLimits exShopModel 0 = [some 1, some 8] ∧ exLimits exShopModel 6 = [none, some 4] ∧ exProps exShopModel 1 = [("code", true), ("note", false)] ∧
    (exShopModel.base 1).bind (·.description) = some "an item" ∧ ((exShopModel.base 1).bind (·.example_)).map (·.strict) = some false := by
  decide +kernel

/-- The hypotheses of the theorems are met by this parse: `Code` is what its last declaration says. -/
example {l : Lib} (hl : l ∈ exShopModel.libs) (hp : l.location = "a.raml") : ∃ a, OMap.get l.types "Code" = some a ∧
    Describes exShopEnv exShopModel "a.raml" (exMap [("type", .str "string"), ("maxLength", .str "4")]) "Code" a := by
  have h := (c63_declared exShopEnv 20 20 "a.raml" _ _ exShop_parses hl (d := exDoc _) (sec := exMap _)
    ⟨"#%RAML 1.0 Library\na", by rw [hp]; rfl, rfl⟩ rfl "Code").1 (exMap [("type", .str "string"), ("maxLength", .str "4")]) rfl
  rw [hp] at h
  exact h

end GoRaml.Props
