import Verif.Spec.Valid
import Verif.Spec.Graph

/-!
# Specification of a consistent type definition (C22)
-/

namespace GoRaml.Spec

open GoRaml

/-- The lower bound does not exceed the upper bound, when both are declared. -/
def NotCrossed {α : Type} (le : α → α → Prop) (lo hi : Option α) : Prop := ∀ a b, lo = some a → hi = some b → le a b

/-- Every declared enum value has the given kind. -/
def EnumKind (kind : GoVal → Prop) (enum : Option (List GoVal)) : Prop := ∀ es, enum = some es → ∀ v ∈ es, kind v

/-- The kinds of type that count as scalar: everything but objects, arrays, unions, JSON types, unresolved types and
recursive references. -/
def IsScalarType : Shape → Prop
  | .object _ => False
  | .array _ => False
  | .union _ _ => False
  | .json _ _ => False
  | .unknown _ => False
  | .recursive _ => False
  | _ => True

/-- The names of integer formats. -/
def integerFormats : List String := ["int8", "int16", "int32", "int", "int64", "long"]

/-- One type definition is consistent by itself (its component types are not looked into, except that the discriminator
property must be a scalar accepting the discriminator value). -/
def DefinitionOK (E : Ext) (h : St) : Shape → Prop
  | .integer f => NotCrossed (· ≤ ·) f.minimum f.maximum ∧
      EnumKind (fun v => (∃ z, v = .int z) ∨ ∃ n, v = .uint n) f.enum ∧ ∀ x, f.format = some x → x ∈ integerFormats
  | .number f => NotCrossed (fun a b => ¬ FloatLt b a) f.minimum f.maximum ∧
      EnumKind (fun v => (∃ z, v = .int z) ∨ (∃ n, v = .uint n) ∨ ∃ x, v = .float x) f.enum
  | .string f => NotCrossed (· ≤ ·) f.minLength f.maxLength ∧ EnumKind (fun v => ∃ s, v = .str s) f.enum
  | .file f => NotCrossed (· ≤ ·) f.minLength f.maxLength ∧ EnumKind (fun v => ∃ s, v = .str s) f.fileTypes
  | .boolean enum => EnumKind (fun v => ∃ b, v = .bool b) enum
  | .array f => NotCrossed (· ≤ ·) f.minItems f.maxItems
  | .object f => NotCrossed (· ≤ ·) f.minProperties f.maxProperties ∧
      -- closed objects have no pattern properties
      (f.additionalProperties = some false → f.patternProperties = none) ∧
      -- the discriminator is a scalar property, and accepts the discriminator value
      (∀ d, f.discriminator = some d → ∃ p s, Declares (h.props f.properties) d p ∧ h.shapeAt p.base = some s ∧
        IsScalarType s ∧ (f.discriminatorValue ≠ .nil → Valid E h p.base f.discriminatorValue))
  | .unknown _ => False
  | _ => True

/-- Reachable through items, properties, pattern properties and union members. -/
inductive Mentions (h : St) : Addr → Addr → Prop
  | refl (a : Addr) : Mentions h a a
  | step {a x y : Addr} {s : Shape} : h.shapeAt a = some s → ShapeEdge h s x → Mentions h x y → Mentions h a y

/-- The type and every type it mentions, at any depth, is consistent. -/
def Consistent (E : Ext) (h : St) (a : Addr) : Prop :=
  ∀ y, Mentions h a y → ∃ s, h.shapeAt y = some s ∧ DefinitionOK E h s

/-- `x` mentions `y` directly, as item, property, pattern property or union member type. -/
def Refers (h : St) (x y : Addr) : Prop := ∃ s, h.shapeAt x = some s ∧ ShapeEdge h s y

/-- Every path from `a` through items, properties, pattern properties and union members ends (recursion goes through
recursive references): what recursion marking leaves behind (C30). -/
def NoInfinitePath (h : St) (a : Addr) : Prop := ∀ f : Nat → Addr, f 0 = a → ∃ n, ¬ Refers h (f n) (f (n + 1))

/-- Discriminator values are Go values as they occur at run time. -/
def RuntimeDiscriminators (h : St) : Prop := ∀ a f, h.shapeAt a = some (.object f) → GoValue f.discriminatorValue

end GoRaml.Spec
