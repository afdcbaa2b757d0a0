import Verif.Model.Heap
import Mathlib.Data.List.Forall2

/-!
# Specification vocabulary for the type graph: well-formed heaps, growth, copies
-/

namespace GoRaml.Spec

open GoRaml

/-- `p` is nil or satisfies `P`. -/
def IfSome {α : Type} (P : α → Prop) (p : Option α) : Prop := ∀ x, p = some x → P x

/-- The address is allocated. -/
def IsBase (h : St) (a : Addr) : Prop := a < h.bases.length

/-- A pointer to a map of properties whose types are allocated. -/
def PropsOK (h : St) (i : Nat) : Prop :=
  ∃ ps, h.pmaps[i]? = some ps ∧ ∀ p ∈ ps, IsBase h p.2.base

/-- A pointer to a map of pattern properties whose types are allocated. -/
def PatPropsOK (h : St) (i : Nat) : Prop :=
  ∃ ps, h.ppmaps[i]? = some ps ∧ ∀ p ∈ ps, IsBase h p.2.base

/-- A slice of allocated types. -/
def SliceOK (h : St) (i : Nat) : Prop := ∃ l, h.slices[i]? = some l ∧ ∀ a ∈ l, IsBase h a

/-- The pointers inside a shape are valid. -/
def ShapeOK (h : St) : Shape → Prop
  | .array f => IfSome (IsBase h) f.items
  | .object f => IfSome (PropsOK h) f.properties ∧ IfSome (PatPropsOK h) f.patternProperties
  | .union anyOf _ => IfSome (SliceOK h) anyOf
  | .recursive head => IsBase h head
  | _ => True

/-- A base shape all of whose pointers are valid. -/
structure BaseOK (h : St) (b : Base) : Prop where
  shape : ∃ s, b.shape = some s ∧ ShapeOK h s
  facets : IfSome (fun i => ∃ m, h.fmaps[i]? = some m) b.facets
  facetDefs : IfSome (PropsOK h) b.facetDefs
  «alias» : IfSome (IsBase h) b.alias
  inherits : IfSome (SliceOK h) b.inherits
  link : IfSome (fun i => ∃ d a, h.dts[i]? = some d ∧ d.shape = some a ∧ IsBase h a) b.link

/-- Every base shape has a shape and valid pointers: what the Go type system and the parser guarantee. -/
def WellFormed (h : St) : Prop := ∀ a b, h.base a = some b → BaseOK h b

/-- Everything allocated in `h` is still there and unchanged in `h'`. -/
structure Unchanged (h h' : St) : Prop where
  bases : h.bases <+: h'.bases
  pmaps : h.pmaps <+: h'.pmaps
  ppmaps : h.ppmaps <+: h'.ppmaps
  slices : h.slices <+: h'.slices
  fmaps : h.fmaps <+: h'.fmaps
  dts : h.dts <+: h'.dts
  libs : h'.libs = h.libs
  shapes : h'.shapes = h.shapes
  unresolved : h'.unresolved = h.unresolved
  fragments : h'.fragments = h.fragments
  fragTypes : h'.fragTypes = h.fragTypes
  fragAnnotationTypes : h'.fragAnnotationTypes = h.fragAnnotationTypes
  domainExts : h'.domainExts = h.domainExts
  idCounter : h'.idCounter = h.idCounter

/-- Both nil, or both set and related. -/
def BothOr {α β : Type} (R : α → β → Prop) : Option α → Option β → Prop
  | none, none => True
  | some a, some b => R a b
  | _, _ => False

/-- Property maps with the same names, flags and order and related types. -/
def SameProps (R : Addr → Addr → Prop) (ps ps' : OMap Property) : Prop :=
  List.Forall₂ (fun p q => q.1 = p.1 ∧ q.2.name = p.2.name ∧ q.2.required = p.2.required ∧
    R p.2.base q.2.base) ps ps'

/-- Pattern property maps with the same patterns and order and related types. -/
def SamePatProps (R : Addr → Addr → Prop) (ps ps' : OMap PatternProperty) : Prop :=
  List.Forall₂ (fun p q => q.1 = p.1 ∧ q.2.pattern = p.2.pattern ∧ R p.2.base q.2.base) ps ps'

/-- `s'` in heap `h'` has the same facets as `s` in heap `h`, with the component types related by `R`
and the heads of recursive references related by `H`. -/
def SameShape (R H : Addr → Addr → Prop) (h h' : St) : Shape → Shape → Prop
  | .array f, .array g =>
    g.minItems = f.minItems ∧ g.maxItems = f.maxItems ∧ g.uniqueItems = f.uniqueItems ∧
      BothOr R f.items g.items
  | .object f, .object g =>
    g.discriminator = f.discriminator ∧ g.discriminatorValue = f.discriminatorValue ∧
    g.additionalProperties = f.additionalProperties ∧ g.minProperties = f.minProperties ∧
    g.maxProperties = f.maxProperties ∧
    BothOr (fun i j => SameProps R (h.props (some i)) (h'.props (some j))) f.properties g.properties ∧
    BothOr (fun i j => SamePatProps R (h.patProps (some i)) (h'.patProps (some j)))
      f.patternProperties g.patternProperties
  | .union l e, .union l' e' => e' = e ∧ List.Forall₂ R (h.slice l) (h'.slice l')
  | .recursive x, .recursive y => H x y
  | .array _, _ => False
  | .object _, _ => False
  | .union _ _, _ => False
  | .recursive _, _ => False
  | s, s' => s' = s

/-- `b'` is a copy of `b`: all plain fields and custom facets equal, all linked types related by `R`. -/
structure SameBase (R H : Addr → Addr → Prop) (h h' : St) (b b' : Base) : Prop where
  id : b'.id = b.id
  name : b'.name = b.name
  displayName : b'.displayName = b.displayName
  description : b'.description = b.description
  type : b'.type = b.type
  typeLabel : b'.typeLabel = b.typeLabel
  example_ : b'.example_ = b.example_
  examples : b'.examples = b.examples
  default : b'.default = b.default
  required : b'.required = b.required
  domainProps : b'.domainProps = b.domainProps
  unwrapped : b'.unwrapped = b.unwrapped
  visited : b'.visited = b.visited
  location : b'.location = b.location
  facets : h'.facetMap b'.facets = h.facetMap b.facets
  facetDefs : SameProps R (h.props b.facetDefs) (h'.props b'.facetDefs)
  «alias» : BothOr R b.alias b'.alias
  inherits : BothOr (fun i j => List.Forall₂ R (h.slice (some i)) (h'.slice (some j))) b.inherits b'.inherits
  link : BothOr (fun i j => ∃ d d', h.dts[i]? = some d ∧ h'.dts[j]? = some d' ∧
    d'.location = d.location ∧ d'.uses = d.uses ∧ BothOr R d.shape d'.shape) b.link b'.link
  shape : BothOr (SameShape R H h h') b.shape b'.shape

/-- The types a shape mentions directly: items, property types, pattern property types, union members.  (The head of a
recursive reference is not among them, see `HeadEdge`.) -/
inductive ShapeEdge (h : St) : Shape → Addr → Prop
  | items {f : ArrayF} {a : Addr} : f.items = some a → ShapeEdge h (.array f) a
  | property {f : ObjectF} {p : String × Property} : p ∈ h.props f.properties → ShapeEdge h (.object f) p.2.base
  | pattern {f : ObjectF} {p : String × PatternProperty} : p ∈ h.patProps f.patternProperties →
      ShapeEdge h (.object f) p.2.base
  | member {l : Option Nat} {e : Option (List GoVal)} {m : Addr} : m ∈ h.slice l → ShapeEdge h (.union l e) m

/-- The types a type mentions directly: those of its shape, the aliased type, its parents, the linked
fragment's type and the types of its custom facets. -/
inductive Edge (h : St) : Addr → Addr → Prop
  | shape {a y : Addr} {s : Shape} : h.shapeAt a = some s → ShapeEdge h s y → Edge h a y
  | aliased {a y : Addr} {b : Base} : h.base a = some b → b.alias = some y → Edge h a y
  | parent {a y : Addr} {b : Base} : h.base a = some b → y ∈ h.slice b.inherits → Edge h a y
  | linked {a y : Addr} {b : Base} {i : Nat} {d : DT} : h.base a = some b → b.link = some i → h.dts[i]? = some d →
      d.shape = some y → Edge h a y
  | facet {a : Addr} {b : Base} {p : String × Property} : h.base a = some b → p ∈ h.props b.facetDefs →
      Edge h a p.2.base

/-- A recursive reference and its head. -/
def HeadEdge (h : St) (a y : Addr) : Prop := h.shapeAt a = some (.recursive y)

/-- Reachable by following mentioned types. -/
inductive Reach (h : St) : Addr → Addr → Prop
  | refl (a : Addr) : Reach h a a
  | step {a x y : Addr} : Reach h a x → Edge h x y → Reach h a y

/-- Reachable by following mentioned types and recursive heads. -/
inductive ReachAll (h : St) : Addr → Addr → Prop
  | refl (a : Addr) : ReachAll h a a
  | step {a x y : Addr} : ReachAll h a x → (Edge h x y ∨ HeadEdge h x y) → ReachAll h a y

/-- The IDs of the types reachable from the types in `l` are pairwise different. -/
def UniqueIDsFrom (h : St) (l : List Addr) : Prop :=
  ∀ x y b c, (∃ a ∈ l, Reach h a x) → (∃ a ∈ l, Reach h a y) → h.base x = some b → h.base y = some c → b.id = c.id → x = y

/-- The maps and slices owned by `b` are allocated in `h` and none of them existed in `lo`. -/
structure FreshParts (lo h : St) (b : Base) : Prop where
  facets : IfSome (fun i => lo.fmaps.length ≤ i ∧ i < h.fmaps.length) b.facets
  facetDefs : IfSome (fun i => lo.pmaps.length ≤ i ∧ i < h.pmaps.length) b.facetDefs
  inherits : IfSome (fun i => lo.slices.length ≤ i ∧ i < h.slices.length) b.inherits
  link : IfSome (fun i => lo.dts.length ≤ i ∧ i < h.dts.length) b.link
  object : ∀ f, b.shape = some (.object f) →
    IfSome (fun i => lo.pmaps.length ≤ i ∧ i < h.pmaps.length) f.properties ∧
    IfSome (fun i => lo.ppmaps.length ≤ i ∧ i < h.ppmaps.length) f.patternProperties
  union : ∀ l e, b.shape = some (.union l e) →
    ∃ i, l = some i ∧ lo.slices.length ≤ i ∧ i < h.slices.length

end GoRaml.Spec
