import Verif.Model.SchemaMem
import Mathlib.Data.List.Forall2

/-!
# What a schema in memory is, and what it consists of
-/

namespace GoRaml.Spec

open GoRaml

/-- An object in memory. -/
inductive Cell where
  | node (i : Nat)
  | nat (i : Nat)
  | bool (i : Nat)
  | strs (i : Nat)
  | vals (i : Nat)
  | ptrs (i : Nat)
  | map (i : Nat)
  | vmap (i : Nat)

/-- The object is the same in both memories. -/
def SameCell (h h' : Mem) : Cell → Prop
  | .node i => h'.nodes[i]? = h.nodes[i]?
  | .nat i => h'.nats[i]? = h.nats[i]?
  | .bool i => h'.bools[i]? = h.bools[i]?
  | .strs i => h'.strs[i]? = h.strs[i]?
  | .vals i => h'.vals[i]? = h.vals[i]?
  | .ptrs i => h'.ptrs[i]? = h.ptrs[i]?
  | .map i => h'.maps[i]? = h.maps[i]?
  | .vmap i => h'.vmaps[i]? = h.vmaps[i]?

/-- The object exists. -/
def IsCell (h : Mem) : Cell → Prop
  | .node i => i < h.nodes.length
  | .nat i => i < h.nats.length
  | .bool i => i < h.bools.length
  | .strs i => i < h.strs.length
  | .vals i => i < h.vals.length
  | .ptrs i => i < h.ptrs.length
  | .map i => i < h.maps.length
  | .vmap i => i < h.vmaps.length

/-- What a copy can share with its original: numbers and booleans behind pointers, and slices and maps without entries. -/
def Shared (h : Mem) : Cell → Prop
  | .nat _ => True
  | .bool _ => True
  | .strs i => h.strs[i]? = some []
  | .vals i => h.vals[i]? = some []
  | .ptrs i => h.ptrs[i]? = some []
  | .map i => h.maps[i]? = some []
  | _ => False

/-- The objects that the fields of a schema point to. -/
inductive Points (x : SNode) : Cell → Prop where
  | nat {i} : some i ∈ [x.maxLength, x.minLength, x.maxItems, x.minItems, x.maxContains, x.minContains, x.maxProperties, x.minProperties] → Points x (.nat i)
  | bool {i} : some i ∈ [x.uniqueItems, x.additionalProperties] → Points x (.bool i)
  | strs {i} : x.required = some i → Points x (.strs i)
  | vals {i} : some i ∈ [x.enum, x.examples] → Points x (.vals i)
  | ptrs {i} : some i ∈ [x.allOf, x.anyOf, x.oneOf] → Points x (.ptrs i)
  | node {i} : some i ∈ [x.not_, x.if_, x.then_, x.else_, x.items, x.propertyNames] → Points x (.node i)
  | map {i} : some i ∈ [x.properties, x.patternProperties, x.definitions, x.facetDefinitions] → Points x (.map i)
  | vmap {i} : some i ∈ [x.annotations, x.facetData] → Points x (.vmap i)

/-- The objects that make up the schema at `a`. -/
inductive Consists (h : Mem) (a : Nat) : Cell → Prop where
  | self : Consists h a (.node a)
  | field {y x q} : Consists h a (.node y) → h.nodes[y]? = some x → Points x q → Consists h a q
  | member {i l b} : Consists h a (.ptrs i) → h.ptrs[i]? = some l → some b ∈ l → Consists h a (.node b)
  | entry {i l k b} : Consists h a (.map i) → h.maps[i]? = some l → (k, some b) ∈ l → Consists h a (.node b)

/-- The objects that a shallow copy does not share: the schema itself, its annotations, its facet definitions (the map, not the schemas in it) and its facet data. -/
inductive OwnCell (h : Mem) (a : Nat) : Cell → Prop where
  | self : OwnCell h a (.node a)
  | annotations {x i} : h.nodes[a]? = some x → x.annotations = some i → OwnCell h a (.vmap i)
  | facetDefinitions {x i} : h.nodes[a]? = some x → x.facetDefinitions = some i → OwnCell h a (.map i)
  | facetData {x i} : h.nodes[a]? = some x → x.facetData = some i → OwnCell h a (.vmap i)

/-- A pointer and what it points to, if it is not nil. -/
def Deref {α : Type} (store : List α) (p : Option Nat) (v : Option α) : Prop :=
  match p with
  | none => v = none
  | some i => ∃ x, store[i]? = some x ∧ v = some x

/-- A slice or map and what it holds; nil holds nothing. -/
def Contains {α : Type} (store : List (List α)) (p : Option Nat) (l : List α) : Prop :=
  match p with
  | none => l = []
  | some i => store[i]? = some l

/-- A pointer to a schema and the schema, or nil. -/
def IsRef (R : Nat → JS → Prop) (p : Option Nat) (s : Option JS) : Prop :=
  match p, s with
  | none, none => True
  | some a, some s => R a s
  | _, _ => False

/-- A slice of schemas. -/
def IsList (h : Mem) (R : Nat → JS → Prop) (p : Option Nat) (l : List (Option JS)) : Prop := ∃ ps, Contains h.ptrs p ps ∧ List.Forall₂ (IsRef R) ps l

/-- Entries of a map of schemas. -/
def IsEntries (R : Nat → JS → Prop) (ps : List (String × Option Nat)) (l : List (String × Option JS)) : Prop :=
  List.Forall₂ (fun e f => e.1 = f.1 ∧ IsRef R e.2 f.2) ps l

/-- A map of schemas behind a pointer. -/
def IsMap (h : Mem) (R : Nat → JS → Prop) (p : Option Nat) (m : Option (List (String × Option JS))) : Prop :=
  match p, m with
  | none, none => True
  | some i, some l => ∃ ps, h.maps[i]? = some ps ∧ IsEntries R ps l
  | _, _ => False

/-- The fields that are neither pointers nor slices nor maps. -/
def flatPart (c : JSCore) : JSCore :=
  { c with maxLength := none, minLength := none, maxItems := none, minItems := none, maxContains := none, minContains := none, maxProperties := none
           minProperties := none, uniqueItems := none, additionalProperties := none, required := [], enum := [], examples := [] }

/-- The fields that are no schemas. -/
structure IsCore (h : Mem) (x : SNode) (c : JSCore) : Prop where
  maxLength : Deref h.nats x.maxLength c.maxLength
  minLength : Deref h.nats x.minLength c.minLength
  maxItems : Deref h.nats x.maxItems c.maxItems
  minItems : Deref h.nats x.minItems c.minItems
  maxContains : Deref h.nats x.maxContains c.maxContains
  minContains : Deref h.nats x.minContains c.minContains
  maxProperties : Deref h.nats x.maxProperties c.maxProperties
  minProperties : Deref h.nats x.minProperties c.minProperties
  uniqueItems : Deref h.bools x.uniqueItems c.uniqueItems
  additionalProperties : Deref h.bools x.additionalProperties c.additionalProperties
  required : Contains h.strs x.required c.required
  enum : Contains h.vals x.enum c.enum
  examples : Contains h.vals x.examples c.examples
  flat : flatPart x.flat = flatPart c

/-- The object `x` is the schema `s`, where pointers to schemas are read with `R`. -/
structure IsNode (h : Mem) (R : Nat → JS → Prop) (x : SNode) (s : JS) : Prop where
  core : IsCore h x s.core
  allOf : IsList h R x.allOf s.allOf
  anyOf : IsList h R x.anyOf s.anyOf
  oneOf : IsList h R x.oneOf s.oneOf
  not_ : IsRef R x.not_ s.not_
  if_ : IsRef R x.if_ s.if_
  then_ : IsRef R x.then_ s.then_
  else_ : IsRef R x.else_ s.else_
  items : IsRef R x.items s.items
  propertyNames : IsRef R x.propertyNames s.propertyNames
  properties : IsMap h R x.properties s.properties
  patternProperties : IsMap h R x.patternProperties s.patternProperties
  definitions : ∃ ps, Contains h.maps x.definitions ps ∧ IsEntries R ps s.definitions
  facetDefinitions : IsMap h R x.facetDefinitions s.facetDefinitions
  annotations : Deref h.vmaps x.annotations s.annotations
  facetData : Deref h.vmaps x.facetData s.facetData

/-- The schema at `a` is `s`, of depth at most `n`. -/
def IsSchemaTo (h : Mem) : Nat → Nat → JS → Prop
  | 0, _, _ => False
  | n + 1, a, s => ∃ x, h.nodes[a]? = some x ∧ IsNode h (IsSchemaTo h n) x s

/-- The schema at `a` is `s`. -/
def IsSchema (h : Mem) (a : Nat) (s : JS) : Prop := ∃ n, IsSchemaTo h n a s

end GoRaml.Spec
