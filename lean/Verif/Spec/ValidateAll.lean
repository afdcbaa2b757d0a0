import Verif.Spec.Commons

/-!
# When a whole model is valid (C44)
-/

namespace GoRaml.Spec

open GoRaml

/-- The types a model declares: annotation types and types of its libraries, and the types of its data type fragments. -/
inductive DeclaredType (h : St) : Addr → Prop where
  | type {k : String} {i : Nat} {l : Lib} {e : String × Addr} : (k, FragRef.library i) ∈ h.fragments → h.libs[i]? = some l →
      e ∈ l.types → DeclaredType h e.2
  | annotationType {k : String} {i : Nat} {l : Lib} {e : String × Addr} : (k, FragRef.library i) ∈ h.fragments → h.libs[i]? = some l →
      e ∈ l.annotationTypes → DeclaredType h e.2
  | dataType {k : String} {i : Nat} {d : DT} {a : Addr} : (k, FragRef.dataType i) ∈ h.fragments → h.dts[i]? = some d →
      d.shape = some a → DeclaredType h a

/-- The definition of a type is right: it is consistent, and its facets, examples and defaults are right. -/
def TypeOK (E : Ext) (h : St) (a : Addr) : Prop := Consistent E h a ∧ CommonsOK E h a

/-- A model is valid: all its types are right, and the value of every annotation belongs to its annotation type. -/
def ModelOK (E : Ext) (h : St) : Prop :=
  (∀ a, DeclaredType h a → TypeOK E h a) ∧ ∀ d ∈ h.domainExts, ∀ a, d.definedBy = some a → Valid E h a d.value

/-- Every fragment is in the arenas, with a type where one is due, and every annotation knows its type. -/
structure Loaded (h : St) : Prop where
  libs : ∀ k i, (k, FragRef.library i) ∈ h.fragments → ∃ l, h.libs[i]? = some l
  dts : ∀ k i, (k, FragRef.dataType i) ∈ h.fragments → ∃ d a, h.dts[i]? = some d ∧ d.shape = some a
  declared : ∀ a, DeclaredType h a → a < h.bases.length
  defined : ∀ d ∈ h.domainExts, ∃ a, d.definedBy = some a ∧ a < h.bases.length

/-- All declared types and annotation types in use are unwrapped, as after `UnwrapShapes`. -/
def AllUnwrapped (h : St) : Prop :=
  (∀ a b, DeclaredType h a → h.base a = some b → b.unwrapped = true) ∧
  ∀ d ∈ h.domainExts, ∀ a b, d.definedBy = some a → h.base a = some b → b.unwrapped = true

end GoRaml.Spec
