import Verif.Spec.Inherit
import Verif.Spec.ValidateAll

/-!
# Specification of unwrapping a whole model (C61, C62)
-/

namespace GoRaml.Spec

open GoRaml

/-- The panics of Go's `==` on two interface values that both hold lists or both hold maps. -/
def Uncomparable (e : String) : Prop :=
  e = "comparing uncomparable type []interface {}" ∨ e = "comparing uncomparable type map[string]interface {}"

/-- What a library declares: where it is, what it uses, and the names of its types and annotation types, in order. -/
def Lib.Outline (l : Lib) : String × List (String × String × Option Nat) × List String × List String :=
  (l.location, l.uses, l.types.map (·.1), l.annotationTypes.map (·.1))

/-- The two models have the same fragments, which declare the same names in the same order, and the same annotations (name, value and place). -/
structure SameOutline (h h' : St) : Prop where
  fragments : h'.fragments = h.fragments
  libs : h'.libs.map Lib.Outline = h.libs.map Lib.Outline
  dts : ∀ (i : Nat) (d : DT), h.dts[i]? = some d → ∃ d' : DT, h'.dts[i]? = some d' ∧ d'.location = d.location ∧ d'.uses = d.uses
  annotations : h'.domainExts.map (fun d => (d.name, d.value, d.location)) = h.domainExts.map (fun d => (d.name, d.value, d.location))

/-- A model without holes: no pointer dangles, no reference is left to resolve, and fragments and declared types are there. -/
structure WholeModel (h : St) : Prop where
  wellFormed : WellFormed h
  resolved : ∀ a f, h.shapeAt a ≠ some (.unknown f)
  libs : ∀ k i, (k, FragRef.library i) ∈ h.fragments → ∃ l, h.libs[i]? = some l
  dts : ∀ k i, (k, FragRef.dataType i) ∈ h.fragments → ∃ d, h.dts[i]? = some d
  libTypes : ∀ l ∈ h.libs, (∀ e ∈ l.types, IsBase h e.2) ∧ ∀ e ∈ l.annotationTypes, IsBase h e.2
  dtTypes : ∀ d ∈ h.dts, ∃ a, d.shape = some a ∧ IsBase h a
  annotations : ∀ d ∈ h.domainExts, IfSome (IsBase h) d.definedBy

/-- The enum values, or file types, of a type. -/
def EnumOf : Shape → Option (List GoVal)
  | .string f => f.enum
  | .integer f => f.enum
  | .number f => f.enum
  | .boolean e => e
  | .file f => f.fileTypes
  | _ => none

/-- No enum of the model has a list or a map among its values. -/
def ScalarEnums (h : St) : Prop := ∀ a s, h.shapeAt a = some s → ScalarEnum (EnumOf s)

/-- The type is marked as being visited: an inheritance or a recursion marking that entered it has not left it. -/
def LeftVisited (h : St) (a : Addr) : Prop := ∃ b, h.base a = some b ∧ b.visited = true

/-- The type and all its components are there and unwrapped. -/
def FullyUnwrapped (h : St) (a : Addr) : Prop := ∀ y, WithComponents h a y → ∃ b, h.base y = some b ∧ b.unwrapped = true

end GoRaml.Spec
