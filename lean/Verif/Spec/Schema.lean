import Verif.Spec.Commons

/-!
# JSON Schema: references and meaning (C48 - C51)

Nothing here refers to the model's functions.
-/

namespace GoRaml.Spec

open GoRaml

/-- `t` is an immediate sub-schema of `s`, under any keyword. -/
inductive SubSchema (s t : JS) : Prop where
  | definitions {k : String} : (k, some t) ∈ s.definitions → SubSchema s t
  | allOf : some t ∈ s.allOf → SubSchema s t
  | anyOf : some t ∈ s.anyOf → SubSchema s t
  | oneOf : some t ∈ s.oneOf → SubSchema s t
  | not_ : s.not_ = some t → SubSchema s t
  | if_ : s.if_ = some t → SubSchema s t
  | then_ : s.then_ = some t → SubSchema s t
  | else_ : s.else_ = some t → SubSchema s t
  | items : s.items = some t → SubSchema s t
  | propertyNames : s.propertyNames = some t → SubSchema s t
  | properties {m : List (String × Option JS)} {k : String} : s.properties = some m → (k, some t) ∈ m → SubSchema s t
  | patternProperties {m : List (String × Option JS)} {k : String} : s.patternProperties = some m → (k, some t) ∈ m → SubSchema s t
  | facetDefinitions {m : List (String × Option JS)} {k : String} : s.facetDefinitions = some m → (k, some t) ∈ m → SubSchema s t

/-- `t` occurs in `s`, at any depth. -/
inductive Occurs : JS → JS → Prop where
  | refl (s : JS) : Occurs s s
  | step {s t u : JS} : SubSchema s t → Occurs t u → Occurs s u

/-- Every `$ref` in `s` points to a schema among the definitions `D`. -/
def RefsResolve (D : List (String × Option JS)) (s : JS) : Prop :=
  ∀ t, Occurs s t → t.core.ref ≠ "" → ∃ k d, t.core.ref = "#/definitions/" ++ k ∧ (k, some d) ∈ D

/-- What conversion of a type looks at: its components, and the head of a recursive reference. -/
inductive SchemaReach (h : St) : Addr → Addr → Prop where
  | refl (a : Addr) : SchemaReach h a a
  | component {a x y : Addr} : Component h a x → SchemaReach h x y → SchemaReach h a y
  | head {a x y : Addr} : h.shapeAt a = some (.recursive x) → SchemaReach h x y → SchemaReach h a y

/-- Every type the conversion looks at is resolved and is not an embedded JSON schema. -/
def NoEmbedded (h : St) (a : Addr) : Prop :=
  ∀ y, SchemaReach h a y → ∃ s, h.shapeAt y = some s ∧ (∀ f, s ≠ .unknown f) ∧ ∀ raw sc, s ≠ .json raw sc

/-- Types the converter has a schema for: embedded JSON schemas are present, file types are given as strings, pattern properties have
delimiters. -/
def Writable (h : St) : Shape → Prop
  | .json _ sc => sc ≠ none
  | .file f => ∀ l, f.fileTypes = some l → ∃ t l', l = .str t :: l'
  | .object f => ∀ e ∈ h.patProps f.patternProperties, 2 ≤ e.1.length
  | _ => True

/-- File types that a conversion looks at list a name first, if they list anything. -/
def MediaTypesNamed (h : St) (a : Addr) : Prop :=
  ∀ y f l, SchemaReach h a y → h.shapeAt y = some (.file f) → f.fileTypes = some l → ∃ t l', l = .str t :: l'

/-! ## Object types (C49) -/

/-- What the schema of an object type says about properties. -/
structure ObjectSchema (h : St) (f : ObjectF) (s : JS) : Prop where
  type : s.core.type = "object"
  /-- the properties in declaration order -/
  keys : (s.properties.getD []).map (·.1) = (h.props f.properties).map (·.1)
  /-- in the same order -/
  order : s.core.required.Sublist ((h.props f.properties).map (·.1))
  /-- exactly the required ones -/
  required : ∀ k, k ∈ s.core.required ↔ ∃ p, (k, p) ∈ h.props f.properties ∧ p.required = true
  /-- pattern properties in order, keys without the slashes -/
  patterns : (h.patProps f.patternProperties).map (·.1) = (s.patternProperties.getD []).map fun e => "/" ++ e.1 ++ "/"
  additional : s.core.additionalProperties = f.additionalProperties
  minProperties : s.core.minProperties = f.minProperties
  maxProperties : s.core.maxProperties = f.maxProperties

/-- The keys of pattern properties are delimited by slashes. -/
def Delimited (h : St) (f : ObjectF) : Prop := ∀ e ∈ h.patProps f.patternProperties, ∃ r : String, e.1 = "/" ++ r ++ "/"

/-! ## Values -/

/-- The number a Go value stands for in JSON. -/
inductive JsonNumber : GoVal → Rat → Prop where
  | int (z : Int) : JsonNumber (.int z) z
  | uint (n : Nat) : JsonNumber (.uint n) n
  | uint64 (n : Nat) : JsonNumber (.uint64 n) n
  | float (q : Rat) : JsonNumber (.float (.fin q)) q

/-- Equality of JSON values: numbers by value, objects regardless of the order of their entries. -/
inductive JsonSame : GoVal → GoVal → Prop where
  | refl (v : GoVal) : JsonSame v v
  | trans {u v w : GoVal} : JsonSame u v → JsonSame v w → JsonSame u w
  | number {v w : GoVal} {q : Rat} : JsonNumber v q → JsonNumber w q → JsonSame v w
  | perm {m m' : List (String × GoVal)} : m.Perm m' → JsonSame (.map m) (.map m')
  | inArr {x y : GoVal} (pre post : List GoVal) : JsonSame x y → JsonSame (.arr (pre ++ x :: post)) (.arr (pre ++ y :: post))
  | inMap {x y : GoVal} (k : String) (pre post : List (String × GoVal)) : JsonSame x y →
      JsonSame (.map (pre ++ (k, x) :: post)) (.map (pre ++ (k, y) :: post))

/-- The types a type is made of. -/
def Involved (h : St) (a : Addr) (s : Shape) : Prop := ∃ y, SchemaReach h a y ∧ h.shapeAt y = some s

/-- The values JSON Schema and RAML read alike, if the types `T` are involved: numbers are finite; where there is a number type, integers are
float64s; where there is an integer type, floats are whole and fit; strings are ASCII; keys are distinct; where there is an array type with
`uniqueItems`, the items of an array can be hashed and have the same hash exactly if they are the same in JSON. -/
inductive Common (E : Ext) (T : Shape → Prop) : GoVal → Prop where
  | nil : Common E T .nil
  | bool (b : Bool) : Common E T (.bool b)
  | int (z : Int) : -(2 ^ 63) ≤ z → z < 2 ^ 63 → (∀ f, T (.number f) → E.toF64 z = .fin z) → Common E T (.int z)
  | uint (n : Nat) : n < 2 ^ 64 → (∀ f, T (.number f) → E.toF64 n = .fin n) → Common E T (.uint n)
  | float (q : Rat) : (∀ f, T (.integer f) → ∃ z : Int, q = z ∧ -(2 ^ 63) ≤ z ∧ z < 2 ^ 63) → Common E T (.float (.fin q))
  | str (s : String) : (∀ c ∈ s.toList, c.val < 128) → Common E T (.str s)
  | arr (l : List GoVal) : (∀ x ∈ l, Common E T x) →
      (∀ f, T (.array f) → f.uniqueItems = some true → (∀ x ∈ l, E.hash x ≠ none) ∧ ∀ x ∈ l, ∀ y ∈ l, E.hash x = E.hash y ↔ JsonSame x y) →
      Common E T (.arr l)
  | map (m : List (String × GoVal)) : (m.map (·.1)).Nodup → (∀ e ∈ m, Common E T e.2) → Common E T (.map m)

/-- JSON Schema types; an integer is a number without fraction. -/
inductive HasType : String → GoVal → Prop where
  | null : HasType "null" .nil
  | boolean (b : Bool) : HasType "boolean" (.bool b)
  | integer {v : GoVal} (z : Int) : JsonNumber v z → HasType "integer" v
  | number {v : GoVal} (q : Rat) : JsonNumber v q → HasType "number" v
  | string (s : String) : HasType "string" (.str s)
  | array (l : List GoVal) : HasType "array" (.arr l)
  | object (m : List (String × GoVal)) : HasType "object" (.map m)

/-- The number a JSON number stands for. -/
inductive NumberOf : JNum → Rat → Prop where
  | int (z : Int) : NumberOf (.int z) z
  | float (q : Rat) : NumberOf (.float (.fin q)) q

/-- The assertions of one schema object about one value, draft 07, for the keywords the converter writes;
`P` says which values the sub-schemas accept.  (`format`, `contentEncoding`, `contentMediaType`, `default`, `examples`, `title` and
`description` do not assert anything.) -/
structure Asserts (E : Ext) (P : JS → GoVal → Prop) (s : JS) (v : GoVal) : Prop where
  type : s.core.type ≠ "" → HasType s.core.type v
  enum : s.core.enum ≠ [] → ∃ e ∈ s.core.enum, JsonSame v e
  minimum : ∀ m q z, s.core.minimum = some m → NumberOf m q → JsonNumber v z → q ≤ z
  maximum : ∀ m q z, s.core.maximum = some m → NumberOf m q → JsonNumber v z → z ≤ q
  minLength : ∀ m t, s.core.minLength = some m → v = .str t → m ≤ t.length
  maxLength : ∀ m t, s.core.maxLength = some m → v = .str t → t.length ≤ m
  pattern : ∀ t, s.core.pattern ≠ "" → v = .str t → E.reMatch s.core.pattern t = true
  minItems : ∀ m l, s.core.minItems = some m → v = .arr l → m ≤ l.length
  maxItems : ∀ m l, s.core.maxItems = some m → v = .arr l → l.length ≤ m
  items : ∀ t l, s.items = some t → v = .arr l → ∀ x ∈ l, P t x
  minProperties : ∀ n m, s.core.minProperties = some n → v = .map m → n ≤ m.length
  maxProperties : ∀ n m, s.core.maxProperties = some n → v = .map m → m.length ≤ n
  required : ∀ m, v = .map m → ∀ k ∈ s.core.required, ∃ x, (k, x) ∈ m
  properties : ∀ m ps, v = .map m → s.properties = some ps → ∀ k x t, (k, x) ∈ m → (k, some t) ∈ ps → P t x
  additional : ∀ m, v = .map m → s.core.additionalProperties = some false → ∀ e ∈ m,
    (∃ p ∈ s.properties.getD [], p.1 = e.1) ∨ ∃ p ∈ s.patternProperties.getD [], E.reMatch p.1 e.1 = true
  anyOf : s.anyOf ≠ [] → ∃ t, some t ∈ s.anyOf ∧ P t v
  multipleOf : ∀ m q z, s.core.multipleOf = some m → NumberOf m q → JsonNumber v z → ∃ k : Int, z = k * q
  uniqueItems : ∀ l, s.core.uniqueItems = some true → v = .arr l → l.Pairwise fun x y => ¬ JsonSame x y
  patternProperties : ∀ m ps, v = .map m → s.patternProperties = some ps → ∀ k x r t, (k, x) ∈ m → (r, some t) ∈ ps → E.reMatch r k = true → P t x

/-- One level of acceptance by a schema, with definitions `D`: a `$ref` stands for the definition and hides its siblings. -/
def SchemaStep (E : Ext) (D : List (String × Option JS)) (P : JS → GoVal → Prop) (s : JS) (v : GoVal) : Prop :=
  if s.core.ref = "" then Asserts E P s v
  else ∃ k t, s.core.ref = "#/definitions/" ++ k ∧ (k, some t) ∈ D ∧ P t v

/-- Acceptance by a schema: the least relation closed under `SchemaStep`. -/
def SchemaValid (E : Ext) (D : List (String × Option JS)) (s : JS) (v : GoVal) : Prop :=
  ∀ P : JS → GoVal → Prop, (∀ s v, SchemaStep E D P s v → P s v) → P s v

/-- Pattern properties read alike: keys are the patterns between slashes, no two patterns match the same key, and none matches a declared
property. -/
structure PatternsApart (E : Ext) (h : St) (f : ObjectF) : Prop where
  delimited : ∀ e ∈ h.patProps f.patternProperties, e.1 = "/" ++ e.2.pattern ++ "/"
  apart : ∀ e ∈ h.patProps f.patternProperties, ∀ e' ∈ h.patProps f.patternProperties, ∀ k,
    E.reMatch e.2.pattern k = true → E.reMatch e'.2.pattern k = true → e = e'
  undeclared : ∀ e ∈ h.patProps f.patternProperties, ∀ p ∈ h.props f.properties, E.reMatch e.2.pattern p.1 = false

/-- An element of an enum of integers, as decoding leaves it. -/
def WholeElement (e : GoVal) : Prop := (∃ z : Int, z < 2 ^ 63 ∧ e = .int z) ∨ ∃ n : Nat, 2 ^ 63 ≤ n ∧ e = .uint n

/-- The types in the scope of C50: any, nil, boolean, integer, number, string, file, array, union, recursion, object.
Enums and patterns are not empty, unions have members, bounds are finite, an enum of a number type is written with floats, there is no
multipleOf (which RAML validation ignores), and an object with pattern properties is open. -/
def ConvertibleShape (E : Ext) (h : St) : Shape → Prop
  | .any => True
  | .nil => True
  | .boolean e => ∀ l, e = some l → l ≠ []
  | .integer f => f.multipleOf = none ∧ ∀ l, f.enum = some l → l ≠ [] ∧ ∀ e ∈ l, WholeElement e
  | .number f => f.multipleOf = none ∧ (∀ m, f.minimum = some m → ∃ q, m = .fin q) ∧ (∀ m, f.maximum = some m → ∃ q, m = .fin q) ∧
      ∀ l, f.enum = some l → l ≠ [] ∧ ∀ e ∈ l, ∃ q, e = .float (.fin q)
  | .string f => f.pattern ≠ some "" ∧ ∀ l, f.enum = some l → l ≠ []
  | .file _ => True
  | .array _ => True
  | .union l _ => h.slice l ≠ []
  | .object f => ((h.props f.properties).map (·.1)).Nodup ∧ PatternsApart E h f ∧
      (h.patProps f.patternProperties ≠ [] → f.additionalProperties ≠ some false)
  | .recursive _ => True
  | _ => False

/-- Every type the conversion looks at is in scope. -/
def Convertible (E : Ext) (h : St) (a : Addr) : Prop :=
  ∀ y, SchemaReach h a y → ∃ s, h.shapeAt y = some s ∧ ConvertibleShape E h s

/-- The types whose schema accepts every value of the type: besides those in the scope of C50, enums, patterns and unions may be empty, bounds
infinite, objects with pattern properties closed; and date and time types whose schema has a `format`. -/
def CoveredShape (E : Ext) (h : St) : Shape → Prop
  | .integer f => f.multipleOf = none
  | .number f => f.multipleOf = none
  | .object f => ((h.props f.properties).map (·.1)).Nodup ∧ PatternsApart E h f
  | .datetime f => f ≠ some "rfc2616"
  | .datetimeOnly => False
  | .json _ _ => False
  | .unknown _ => False
  | _ => True

/-- Every type the conversion looks at is covered. -/
def Covered (E : Ext) (h : St) (a : Addr) : Prop :=
  ∀ y, SchemaReach h a y → ∃ s, h.shapeAt y = some s ∧ CoveredShape E h s

/-- A name a definition can have: the converted type itself and the heads of recursive references. -/
def DefinedBy (h : St) (a y : Addr) : Prop :=
  y = a ∨ ∃ x, SchemaReach h a x ∧ h.shapeAt x = some (.recursive y)

/-- Types that get definitions have different names. -/
def DistinctNames (h : St) (a : Addr) : Prop :=
  ∀ y z b c, DefinedBy h a y → DefinedBy h a z → h.base y = some b → h.base z = some c → b.name = c.name → y = z

end GoRaml.Spec
