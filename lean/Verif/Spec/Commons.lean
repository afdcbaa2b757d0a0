import Verif.Spec.Check

/-!
# When custom facets, examples and defaults of a type are right (C45, C46)

Membership in a type is `Valid`; nothing here refers to the model's functions.
-/

namespace GoRaml.Spec

open GoRaml

/-- `ChainDefs h i l`: going up from a type with the parents in slice `i`, by first parents, `l` lists the facet declarations met, nearest first. -/
inductive ChainDefs (h : St) : Option Nat → List Property → Prop where
  | root (i : Option Nat) : h.slice i = [] → ChainDefs h i []
  | parent (i : Option Nat) (p : Addr) (ps : List Addr) (b : Base) (l : List Property) : h.slice i = p :: ps → h.base p = some b →
      ChainDefs h b.inherits l → ChainDefs h i ((h.props b.facetDefs).map (·.2) ++ l)

/-- `f` declares the facet `k`: among declarations of the same name the one of the farthest ancestor counts. -/
def DeclaresFacet (l : List Property) (k : String) (f : Property) : Prop :=
  f.name = k ∧ ∃ pre post, l = pre ++ f :: post ∧ ∀ g ∈ post, g.name ≠ k

/-- The value of the custom facet `k` of a type (keys of an ordered map are distinct). -/
def FacetValue (m : OMap GoVal) (k : String) (v : GoVal) : Prop :=
  ∃ pre post, m = pre ++ (k, v) :: post ∧ ∀ e ∈ pre, e.1 ≠ k

/-- The custom facets of a type are right, given the declarations `l` of its ancestors. -/
structure FacetsRight (E : Ext) (h : St) (b : Base) (l : List Property) : Prop where
  /-- The type declares no facet that an ancestor declares. -/
  fresh : ∀ f ∈ l, ∀ e ∈ h.props b.facetDefs, e.1 ≠ f.name
  /-- Every required facet has a value. -/
  required : ∀ k f, DeclaresFacet l k f → f.required = true → ∃ v, (k, v) ∈ h.facetMap b.facets
  /-- Values are accepted by the declarations. -/
  typed : ∀ k f v, DeclaresFacet l k f → FacetValue (h.facetMap b.facets) k v → Valid E h f.base v
  /-- Only declared facets have values. -/
  declared : ∀ e ∈ h.facetMap b.facets, ∃ f ∈ l, f.name = e.1

/-- The custom facets of a type are right. -/
def FacetsOK (E : Ext) (h : St) (b : Base) : Prop := ∃ l, ChainDefs h b.inherits l ∧ FacetsRight E h b l

/-- The example, the inline examples and the default of a type belong to it. -/
structure ExamplesOK (E : Ext) (h : St) (a : Addr) (b : Base) : Prop where
  «example» : ∀ ex, b.example_ = some ex → Valid E h a ex.data
  examples : ∀ exs m, b.examples = some exs → exs.map = some m → ∀ e ∈ m, Valid E h a e.2.data
  default : ∀ v, b.default = some v → Valid E h a v

/-- A component of a type: an item, property, pattern property or union member type, or the type of a facet it declares. -/
def Component (h : St) (a y : Addr) : Prop :=
  ∃ b, h.base a = some b ∧ ((∃ s, b.shape = some s ∧ ShapeEdge h s y) ∨ ∃ e ∈ h.props b.facetDefs, e.2.base = y)

/-- Components of components, at any depth. -/
inductive WithComponents (h : St) : Addr → Addr → Prop where
  | refl (a : Addr) : WithComponents h a a
  | step {a x y : Addr} : Component h a x → WithComponents h x y → WithComponents h a y

/-- The facets, examples and defaults of a type and of all its components are right. -/
def CommonsOK (E : Ext) (h : St) (a : Addr) : Prop :=
  ∀ y, WithComponents h a y → ∃ b, h.base y = some b ∧ FacetsOK E h b ∧ ExamplesOK E h y b

/-- The values in a type definition are Go values as they occur at run time. -/
structure RuntimeBase (h : St) (b : Base) : Prop where
  facets : ∀ e ∈ h.facetMap b.facets, GoValue e.2
  «example» : ∀ ex, b.example_ = some ex → GoValue ex.data
  examples : ∀ exs m, b.examples = some exs → exs.map = some m → ∀ e ∈ m, GoValue e.2.data
  default : ∀ v, b.default = some v → GoValue v

/-- The same for all types. -/
def RuntimeValues (h : St) : Prop := ∀ a b, h.base a = some b → RuntimeBase h b

/-- Facet declarations have allocated types. -/
def FacetsClosed (h : St) : Prop := ∀ a b, h.base a = some b → ∀ e ∈ h.props b.facetDefs, e.2.base < h.bases.length

/-- Every type has finitely many first parents, all allocated. -/
def Rooted (h : St) : Prop := ∀ a b, h.base a = some b → ∃ l, ChainDefs h b.inherits l

/-- Every chain of components ends: what recursion marking leaves behind. -/
def NoInfiniteComponents (h : St) (a : Addr) : Prop := ∀ f : Nat → Addr, f 0 = a → ∃ n, ¬ Component h (f n) (f (n + 1))

end GoRaml.Spec
