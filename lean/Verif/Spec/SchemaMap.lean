import Mathlib.Data.List.Forall2
import Verif.Model.Heap

/-!
# Schemas as maps (C52)

Nothing here refers to the model's functions.
-/

namespace GoRaml.Spec

open GoRaml

/-- The keywords of a schema with their values; `F` is the value of a sub-schema.  An empty keyword has no entry. -/
inductive Keyword (F : Option JS → GoVal) (s : JS) : String → GoVal → Prop where
  | version : s.core.version ≠ "" → Keyword F s "$schema" (.str s.core.version)
  | id : s.core.id ≠ "" → Keyword F s "$id" (.str s.core.id)
  | ref : s.core.ref ≠ "" → Keyword F s "$ref" (.str s.core.ref)
  | comment : s.core.comment ≠ "" → Keyword F s "$comment" (.str s.core.comment)
  | type : s.core.type ≠ "" → Keyword F s "type" (.str s.core.type)
  | enum : s.core.enum ≠ [] → Keyword F s "enum" (.arr s.core.enum)
  | const : s.core.const ≠ .nil → Keyword F s "const" s.core.const
  | multipleOfInt {z : Int} : s.core.multipleOf = some (.int z) → Keyword F s "multipleOf" (.int z)
  | multipleOfFloat {x : F64} : s.core.multipleOf = some (.float x) → Keyword F s "multipleOf" (.float x)
  | maximumInt {z : Int} : s.core.maximum = some (.int z) → Keyword F s "maximum" (.int z)
  | maximumFloat {x : F64} : s.core.maximum = some (.float x) → Keyword F s "maximum" (.float x)
  | minimumInt {z : Int} : s.core.minimum = some (.int z) → Keyword F s "minimum" (.int z)
  | minimumFloat {x : F64} : s.core.minimum = some (.float x) → Keyword F s "minimum" (.float x)
  | maxLength {n : Nat} : s.core.maxLength = some n → Keyword F s "maxLength" (.int n)
  | minLength {n : Nat} : s.core.minLength = some n → Keyword F s "minLength" (.int n)
  | pattern : s.core.pattern ≠ "" → Keyword F s "pattern" (.str s.core.pattern)
  | maxItems {n : Nat} : s.core.maxItems = some n → Keyword F s "maxItems" (.int n)
  | minItems {n : Nat} : s.core.minItems = some n → Keyword F s "minItems" (.int n)
  | uniqueItems {b : Bool} : s.core.uniqueItems = some b → Keyword F s "uniqueItems" (.bool b)
  | maxContains {n : Nat} : s.core.maxContains = some n → Keyword F s "maxContains" (.int n)
  | minContains {n : Nat} : s.core.minContains = some n → Keyword F s "minContains" (.int n)
  | maxProperties {n : Nat} : s.core.maxProperties = some n → Keyword F s "maxProperties" (.int n)
  | minProperties {n : Nat} : s.core.minProperties = some n → Keyword F s "minProperties" (.int n)
  | required : s.core.required ≠ [] → Keyword F s "required" (.arr (s.core.required.map .str))
  | contentEncoding : s.core.contentEncoding ≠ "" → Keyword F s "contentEncoding" (.str s.core.contentEncoding)
  | contentMediaType : s.core.contentMediaType ≠ "" → Keyword F s "contentMediaType" (.str s.core.contentMediaType)
  | format : s.core.format ≠ "" → Keyword F s "format" (.str s.core.format)
  | title : s.core.title ≠ "" → Keyword F s "title" (.str s.core.title)
  | description : s.core.description ≠ "" → Keyword F s "description" (.str s.core.description)
  | default : s.core.default ≠ .nil → Keyword F s "default" s.core.default
  | examples : s.core.examples ≠ [] → Keyword F s "examples" (.arr s.core.examples)
  | additionalProperties {b : Bool} : s.core.additionalProperties = some b → Keyword F s "additionalProperties" (.bool b)
  | definitions : s.definitions ≠ [] → Keyword F s "definitions" (.map (s.definitions.map fun e => (e.1, F e.2)))
  | allOf : s.allOf ≠ [] → Keyword F s "allOf" (.arr (s.allOf.map F))
  | anyOf : s.anyOf ≠ [] → Keyword F s "anyOf" (.arr (s.anyOf.map F))
  | oneOf : s.oneOf ≠ [] → Keyword F s "oneOf" (.arr (s.oneOf.map F))
  | not_ : s.not_ ≠ none → Keyword F s "not" (F s.not_)
  | if_ : s.if_ ≠ none → Keyword F s "if" (F s.if_)
  | then_ : s.then_ ≠ none → Keyword F s "then" (F s.then_)
  | else_ : s.else_ ≠ none → Keyword F s "else" (F s.else_)
  | items : s.items ≠ none → Keyword F s "items" (F s.items)
  | propertyNames : s.propertyNames ≠ none → Keyword F s "propertyNames" (F s.propertyNames)
  | properties {m : List (String × Option JS)} : s.properties = some m → m ≠ [] → Keyword F s "properties" (.map (m.map fun e => (e.1, F e.2)))
  | patternProperties {m : List (String × Option JS)} : s.patternProperties = some m → m ≠ [] →
      Keyword F s "patternProperties" (.map (m.map fun e => (e.1, F e.2)))
  | annotations {m : List (String × GoVal)} : s.annotations = some m → m ≠ [] → Keyword F s "x-annotations" (.map m)
  | facetDefinitions {m : List (String × Option JS)} : s.facetDefinitions = some m → m ≠ [] →
      Keyword F s "x-facet-definitions" (.map (m.map fun e => (e.1, F e.2)))
  | facetData {m : List (String × GoVal)} : s.facetData = some m → m ≠ [] → Keyword F s "x-facet-data" (.map m)

/-- Equal up to an empty map and no map, given that for sub-schemas. -/
structure SameKeywords (R : Option JS → Option JS → Prop) (s t : JS) : Prop where
  core : s.core = t.core
  definitions : List.Forall₂ (fun x y => x.1 = y.1 ∧ R x.2 y.2) s.definitions t.definitions
  allOf : List.Forall₂ R s.allOf t.allOf
  anyOf : List.Forall₂ R s.anyOf t.anyOf
  oneOf : List.Forall₂ R s.oneOf t.oneOf
  not_ : R s.not_ t.not_
  if_ : R s.if_ t.if_
  then_ : R s.then_ t.then_
  else_ : R s.else_ t.else_
  items : R s.items t.items
  propertyNames : R s.propertyNames t.propertyNames
  properties : List.Forall₂ (fun x y => x.1 = y.1 ∧ R x.2 y.2) (s.properties.getD []) (t.properties.getD [])
  patternProperties : List.Forall₂ (fun x y => x.1 = y.1 ∧ R x.2 y.2) (s.patternProperties.getD []) (t.patternProperties.getD [])
  annotations : s.annotations.getD [] = t.annotations.getD []
  facetDefinitions : List.Forall₂ (fun x y => x.1 = y.1 ∧ R x.2 y.2) (s.facetDefinitions.getD []) (t.facetDefinitions.getD [])
  facetData : s.facetData.getD [] = t.facetData.getD []

/-- Schemas that are the same up to empty maps, at any depth: the greatest relation closed under `SameKeywords`. -/
def SameSchema (s t : Option JS) : Prop :=
  ∃ R : Option JS → Option JS → Prop, R s t ∧
    ∀ s t, R s t → (s = none ∧ t = none) ∨ ∃ x y, s = some x ∧ t = some y ∧ SameKeywords R x y

end GoRaml.Spec
