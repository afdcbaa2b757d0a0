import Verif.Spec.UnwrapAll

/-!
# Specification of what inherited restrictions add up to (C66)

Types are those of a parsed model, before unwrapping: each has the facets that are written in its own declaration.
-/

namespace GoRaml.Spec

open GoRaml

/-- `d` is declared on top of `x`: `d` is an alias of it, includes it, or names it as its only parent. -/
inductive BuiltOn (h : St) : Addr → Addr → Prop where
  | alias {d x : Addr} {b : Base} : h.base d = some b → b.alias = some x → BuiltOn h d x
  | included {d x : Addr} {b : Base} {k : Nat} {t : DT} : h.base d = some b → b.alias = none → b.link = some k → h.dts[k]? = some t → t.shape = some x →
      BuiltOn h d x
  | parent {d x : Addr} {b : Base} : h.base d = some b → b.alias = none → b.link = none → h.slice b.inherits = [x] → BuiltOn h d x

/-- `d` is declared on top of `x`, directly or not, or is `x`. -/
inductive Descends (h : St) : Addr → Addr → Prop where
  | refl (d : Addr) : Descends h d d
  | step {d x y : Addr} : Descends h d x → BuiltOn h x y → Descends h d y

/-- The declarations that restrict the values of a type, the nearest first: its own, then those of the type it is built on.  An alias is another name of
a type and has no facets of its own. -/
inductive Line (h : St) : Addr → List Addr → Prop where
  | root {d : Addr} {b : Base} : h.base d = some b → b.alias = none → b.link = none → h.slice b.inherits = [] → Line h d [d]
  | alias {d x : Addr} {b : Base} {l : List Addr} : h.base d = some b → b.alias = some x → Line h x l → Line h d l
  | on {d x : Addr} {b : Base} {l : List Addr} : h.base d = some b → b.alias = none → BuiltOn h d x → Line h x l → Line h d (d :: l)

/-- Scalar types, but not `any` and `datetime`; the bounds of a number are not NaN. -/
def Restricting : Shape → Prop
  | .string _ => True
  | .integer _ => True
  | .number f => f.minimum ≠ some .nan ∧ f.maximum ≠ some .nan
  | .boolean _ => True
  | .file _ => True
  | .nil => True
  | .dateOnly => True
  | .timeOnly => True
  | .datetimeOnly => True
  | _ => False

/-- The declaration of the type has a pattern. -/
def HasPattern (h : St) (a : Addr) : Prop := ∃ f, h.shapeAt a = some (.string f) ∧ f.pattern ≠ none

/-- A declaration of a scalar type that defines no custom facets. -/
structure PlainDecl (h : St) (a : Addr) : Prop where
  scalar : ∃ s, h.shapeAt a = some s ∧ Restricting s
  noFacets : ∀ b, h.base a = some b → h.props b.facetDefs = []
  /-- Booleans lose their enum in an alias. -/
  boolean : ∀ b e, h.base a = some b → b.shape = some (.boolean e) → b.alias = none

/-- No list of several parents begins with the type. -/
def NotFirstOfMany (h : St) (a : Addr) : Prop := ∀ l ∈ h.slices, ∀ x m, l ≠ a :: x :: m

end GoRaml.Spec
