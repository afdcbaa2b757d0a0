import Verif.Spec.Check
import Mathlib.Logic.Relation

/-!
# Specification of recursion marking (C30)
-/

namespace GoRaml.Spec

open GoRaml

/-- The edges that recursion marking follows: the above and the types of custom facets. -/
inductive MarkEdge (h : St) : Addr → Addr → Prop
  | refers {x y : Addr} : Refers h x y → MarkEdge h x y
  | facet {x : Addr} {b : Base} {p : String × Property} : h.base x = some b → p ∈ h.props b.facetDefs →
      MarkEdge h x p.2.base

/-- The type mentions itself, directly or indirectly. -/
def OnCycle (h : St) (x : Addr) : Prop := Relation.TransGen (MarkEdge h) x x

/-- A reference to `x` in `h` has become a reference to `y` in `h'`: it is unchanged, or `x` is one of the types `C` and
`y` is a new recursive reference to `x`. -/
def Repl (C : Addr → Prop) (h h' : St) (x y : Addr) : Prop :=
  y = x ∨ (C x ∧ h.base y = none ∧ h'.shapeAt y = some (.recursive x))

/-- The shape is unchanged except perhaps for the item type of an array. -/
inductive ShapeRepl (C : Addr → Prop) (h h' : St) : Option Shape → Option Shape → Prop
  | same (s : Option Shape) : ShapeRepl C h h' s s
  | items {f : ArrayF} {i j : Addr} : f.items = some i → Repl C h h' i j →
      ShapeRepl C h h' (some (.array f)) (some (.array { f with items := some j }))

/-- From `h` to `h'` nothing has changed but this: some references to types in `C` have been replaced by new recursive
references to the same type (and `visited` flags). -/
structure Marked (C : Addr → Prop) (h h' : St) : Prop where
  old : ∀ x b, h.base x = some b →
    ∃ s v, h'.base x = some { b with shape := s, visited := v } ∧ ShapeRepl C h h' b.shape s
  props : ∀ p, List.Forall₂ (fun e e' => e'.1 = e.1 ∧ ∃ y, e'.2 = { e.2 with base := y } ∧ Repl C h h' e.2.base y)
    (h.props p) (h'.props p)
  patProps : ∀ p, List.Forall₂ (fun e e' => e'.1 = e.1 ∧ ∃ y, e'.2 = { e.2 with base := y } ∧ Repl C h h' e.2.base y)
    (h.patProps p) (h'.patProps p)
  slices : ∀ p, List.Forall₂ (Repl C h h') (h.slice p) (h'.slice p)
  fresh : ∀ y b, h.base y = none → h'.base y = some b →
    b.unwrapped = true ∧ h'.props b.facetDefs = [] ∧ ∃ x, C x ∧ b.shape = some (.recursive x)
  roots : ∀ y b, h.base y = none → h'.base y = some b → b.inherits = none

/-- What recursion marking relies on: `a` belongs to a set of types that exist, are unwrapped and mention only types of the
set, and in which the types of custom facets have no custom facets of their own (unwrapping resets them). -/
def ReadyToMark (h : St) (a : Addr) : Prop :=
  ∃ S : Addr → Prop, S a ∧ ∀ x, S x → ∃ b, h.base x = some b ∧ b.unwrapped = true ∧ (∀ y, MarkEdge h x y → S y) ∧
    ∀ p ∈ h.props b.facetDefs, ∀ c, h.base p.2.base = some c → h.props c.facetDefs = []

/-- No traversal is in progress. -/
def NoneVisited (h : St) : Prop := ∀ x b, h.base x = some b → b.visited = false

end GoRaml.Spec
