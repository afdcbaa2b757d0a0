import Verif.Model.Heap

/-!
# Specification of models whose types share no parts (C67)
-/

namespace GoRaml.Spec

open GoRaml

/-- A place where a model holds a type as part of another: the items of an array type, a member of a union type, an entry of a map of properties or
facet definitions, an entry of a map of pattern properties. -/
inductive Spot where
  | items (a : Addr)
  | member (a : Addr) (i : Nat)
  | property (m : Nat) (key : String)
  | pattern (m : Nat) (key : String)

/-- The model holds the type `x` at that place. -/
inductive HeldAt (s : St) : Spot → Addr → Prop where
  | items {a x : Addr} {b : Base} {f : ArrayF} : s.base a = some b → b.shape = some (.array f) → f.items = some x → HeldAt s (.items a) x
  | member {a x : Addr} {b : Base} {e : Option (List GoVal)} {j i : Nat} {l : List Addr} : s.base a = some b → b.shape = some (.union (some j) e) →
      s.slices[j]? = some l → l[i]? = some x → HeldAt s (.member a i) x
  | property {m : Nat} {l : OMap Property} {k : String} {p : Property} : s.pmaps[m]? = some l → (k, p) ∈ l → HeldAt s (.property m k) p.base
  | pattern {m : Nat} {l : OMap PatternProperty} {k : String} {p : PatternProperty} : s.ppmaps[m]? = some l → (k, p) ∈ l → HeldAt s (.pattern m k) p.base

/-- What a type uses a map for: its properties or the facets it defines. -/
inductive MapUse where
  | properties (a : Addr)
  | facets (a : Addr)

/-- The map `m` is used like that. -/
inductive UsedFor (s : St) : MapUse → Nat → Prop where
  | properties {a : Addr} {b : Base} {f : ObjectF} {m : Nat} : s.base a = some b → b.shape = some (.object f) → f.properties = some m → UsedFor s (.properties a) m
  | facets {a : Addr} {b : Base} {m : Nat} : s.base a = some b → b.facetDefs = some m → UsedFor s (.facets a) m

/-- The object type `a` has its pattern properties in the map `m`. -/
def PatternsIn (s : St) (a : Addr) (m : Nat) : Prop := ∃ b f, s.base a = some b ∧ b.shape = some (.object f) ∧ f.patternProperties = some m

/-- Types that are declared in a file, or that another type is an alias or a child of. -/
inductive ReferredTo (s : St) : Addr → Prop where
  | type {l : Lib} {e : String × Addr} : l ∈ s.libs → e ∈ l.types → ReferredTo s e.2
  | annotationType {l : Lib} {e : String × Addr} : l ∈ s.libs → e ∈ l.annotationTypes → ReferredTo s e.2
  | dataType {d : DT} {x : Addr} : d ∈ s.dts → d.shape = some x → ReferredTo s x
  | alias {a x : Addr} {b : Base} : s.base a = some b → b.alias = some x → ReferredTo s x
  | parent {a x : Addr} {b : Base} {j : Nat} {l : List Addr} : s.base a = some b → b.inherits = some j → s.slices[j]? = some l → x ∈ l → ReferredTo s x

/-- The types share no parts: a type is part of another at one place only, a type that is referred to is not part of another, and no map of properties, pattern properties or
facet definitions belongs to two types, or to one of them twice. -/
structure ShareNothing (s : St) : Prop where
  once : ∀ p q x, HeldAt s p x → HeldAt s q x → p = q
  parts : ∀ p x, HeldAt s p x → ¬ ReferredTo s x
  maps : ∀ u w m, UsedFor s u m → UsedFor s w m → u = w
  patterns : ∀ a a' m, PatternsIn s a m → PatternsIn s a' m → a = a'

end GoRaml.Spec
