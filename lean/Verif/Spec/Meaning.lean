import Verif.Spec.Lineage
import Verif.Spec.Check
import Verif.Spec.Inherit

/-!
# Specification of what the types of a parsed model mean (C69)

Types are those of a parsed model, before unwrapping: a reference is still a reference, and each declaration has the facets that are written in it.
-/

namespace GoRaml.Spec

open GoRaml

/-- The declarations of a line of object types, together: each bounds the number of entries, requires its required properties and judges the entries of its
properties.  The entries that none of them has a property for are judged by the pattern properties of all; they are forbidden if a declaration forbids
additional properties and no nearer one allows them. -/
def LineObjectOK (isMatch : String → String → Bool) (P : Addr → GoVal → Prop) (h : St) (l : List Addr) (v : GoVal) : Prop :=
  ∃ m, v = .map m ∧
    (∀ c ∈ l, ∀ f, h.shapeAt c = some (.object f) → Between (· ≤ ·) f.minProperties f.maxProperties m.length) ∧
    (∀ c ∈ l, ∀ f, h.shapeAt c = some (.object f) → ∀ p ∈ h.props f.properties, p.2.required = true → ∃ x, (p.1, x) ∈ m) ∧
    (∀ c ∈ l, ∀ f, h.shapeAt c = some (.object f) → ∀ k x p, (k, x) ∈ m → Declares (h.props f.properties) k p → P p.base x) ∧
    (∀ k x, (k, x) ∈ m → (∀ c ∈ l, ∀ f, h.shapeAt c = some (.object f) → ∀ q ∈ h.props f.properties, q.1 ≠ k) →
      (∀ pre c post f, l = pre ++ c :: post → h.shapeAt c = some (.object f) → f.additionalProperties = some false →
        ∃ c' ∈ pre, ∃ f', h.shapeAt c' = some (.object f') ∧ f'.additionalProperties = some true) ∧
      ((∀ c ∈ l, ∀ f, h.shapeAt c = some (.object f) → ∀ p ∈ h.patProps f.patternProperties, isMatch p.2.pattern k = false) ∨
       (∃ c ∈ l, ∃ f, h.shapeAt c = some (.object f) ∧ ∃ p ∈ h.patProps f.patternProperties, isMatch p.2.pattern k = true ∧ P p.2.base x)))

/-- The declarations of a line accept the value; `P` is what their component types accept.  A type that is built on a union has no members of its own:
the members are those of the last declaration.  Otherwise each declaration has to accept the value. -/
def LineOK (E : Ext) (h : St) (P : Addr → GoVal → Prop) (l : List Addr) (v : GoVal) : Prop :=
  match l.head?.bind h.shapeAt with
  | some (.object _) => LineObjectOK E.reMatch P h l v
  | some (.union _ _) => ∃ c, l.getLast? = some c ∧ Step E h P c v
  | _ => ∀ c ∈ l, Step E h P c v

/-- What the types of a parsed model mean: the least relation such that a type has the values that the declarations of its line accept. -/
def Means (E : Ext) (h : St) (a : Addr) (v : GoVal) : Prop :=
  ∀ P : Addr → GoVal → Prop, (∀ a v l, Line h a l → LineOK E h P l v → P a v) → P a v

/-- `a` involves `y`: `y` is a part of `a`, or `a` is built on `y`. -/
def Involves (h : St) (a y : Addr) : Prop := Refers h a y ∨ BuiltOn h a y

/-- In one or more steps. -/
inductive InvolvesDeeply (h : St) : Addr → Addr → Prop where
  | one {a y : Addr} : Involves h a y → InvolvesDeeply h a y
  | more {a x y : Addr} : InvolvesDeeply h a x → Involves h x y → InvolvesDeeply h a y

/-- Types that others can be built on, with facets of their own: scalar types (but not `any` and `datetime`), arrays, objects and unions. -/
def Heritable : Shape → Prop
  | .array _ => True
  | .object _ => True
  | .union _ _ => True
  | q => Restricting q

/-- The type and those it is built on are scalar types. -/
def Scalar (h : St) (a : Addr) : Prop := ∃ l, Line h a l ∧ ∀ c ∈ l, ∃ q, h.shapeAt c = some q ∧ Restricting q

/-- The declarations of the two types have not both a pattern. -/
def OnePattern (h : St) (x y : Addr) : Prop := ∀ l l', Line h x l → Line h y l' → ∀ c ∈ l, ∀ c' ∈ l', ¬ (HasPattern h c ∧ HasPattern h c')

/-- A declaration `c` of a line and one that it is built on, `c'`, can go together: at most one has a pattern, at most one has items, and no pattern property is in both.
A property that is in both is of scalar types, and then `c'` is not recursive. -/
structure Distinct (h : St) (c c' : Addr) : Prop where
  pattern : ¬ (HasPattern h c ∧ HasPattern h c')
  items : ∀ f f', h.shapeAt c = some (.array f) → h.shapeAt c' = some (.array f') → f.items = none ∨ f'.items = none
  properties : ∀ f f', h.shapeAt c = some (.object f) → h.shapeAt c' = some (.object f') →
    ∀ p ∈ h.props f.properties, ∀ q ∈ h.props f'.properties, p.1 = q.1 →
      Scalar h p.2.base ∧ Scalar h q.2.base ∧ OnePattern h p.2.base q.2.base ∧ ¬ InvolvesDeeply h c' c'
  patterns : ∀ f f', h.shapeAt c = some (.object f) → h.shapeAt c' = some (.object f') →
    ∀ p ∈ h.patProps f.patternProperties, ∀ q ∈ h.patProps f'.patternProperties, p.1 ≠ q.1

/-- Models whose types are built on each other in a straight way. -/
structure Straight (h : St) : Prop where
  /-- Each type is built on one other at most, in the end on a type that is built on none, and its declarations go together. -/
  line : ∀ a b, h.base a = some b → ∃ l, Line h a l ∧ l.Pairwise (Distinct h)
  /-- What a type is built on is of the same kind. -/
  kinds : ∀ d x q r, BuiltOn h d x → h.shapeAt d = some q → h.shapeAt x = some r → Kind q = Kind r
  /-- Types that are built on others, except for aliases, are of these kinds. -/
  heirs : ∀ d b x q, h.base d = some b → b.alias = none → BuiltOn h d x → b.shape = some q → Heritable q
  /-- They are not unions with members of their own. -/
  members : ∀ d b x u e, h.base d = some b → b.alias = none → BuiltOn h d x → b.shape = some (.union u e) → h.slice u = []
  /-- Booleans lose their enum in an alias. -/
  booleans : ∀ d b x e, h.base d = some b → b.alias ≠ none → Descends h d x → h.shapeAt x = some (.boolean e) → e = none
  /-- No type defines custom facets. -/
  noFacets : ∀ a b, h.base a = some b → h.props b.facetDefs = []
  /-- A type that is built on another one and that others are built on is not recursive. -/
  unfinished : ∀ d x y, BuiltOn h d x → BuiltOn h x y → ¬ InvolvesDeeply h x x
  /-- No union is a member of itself. -/
  grounded : ∃ rank : Addr → Nat, (∀ a u e, h.shapeAt a = some (.union u e) → ∀ m ∈ h.slice u, rank m < rank a) ∧ ∀ a x, BuiltOn h a x → rank x ≤ rank a

end GoRaml.Spec
