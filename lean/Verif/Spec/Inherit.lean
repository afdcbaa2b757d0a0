import Verif.Spec.Valid
import Verif.Spec.Graph

/-!
# Specification vocabulary for inheritance
-/

namespace GoRaml.Spec

open GoRaml

/-- The type exists and no inheritance from it is in progress (its visited flag is off). -/
def Idle (h : St) (b : Addr) : Prop := ∃ x, h.base b = some x ∧ x.visited = false

/-- Both bounds are set and the child's is strictly on the wrong side of the parent's. -/
def Loosened {α : Type} (wrong : α → α → Prop) (child parent : Option α) : Prop :=
  ∃ c p, child = some c ∧ parent = some p ∧ wrong c p

/-- Both enums are set and the child allows a value that the parent does not list (NaN never counts as listed). -/
def EnumLoosened (child parent : Option (List GoVal)) : Prop :=
  ∃ es es', child = some es ∧ parent = some es' ∧ ∃ v ∈ es, v ∉ es' ∨ v = .float .nan

/-- Width in bits of an integer format as the code understands it: an unknown name counts as 8 bits. -/
def IntegerWidth : String → Nat
  | "int16" => 16
  | "int32" => 32
  | "int" => 32
  | "int64" => 64
  | "long" => 64
  | _ => 8

/-- The values in the list are scalars (neither arrays nor maps). -/
def ScalarEnum (enum : Option (List GoVal)) : Prop :=
  ∀ es, enum = some es → ∀ v ∈ es, (∀ l, v ≠ .arr l) ∧ (∀ m, v ≠ .map m)

/-- The RAML kind of a type. -/
def Kind : Shape → String
  | .any => "any"
  | .nil => "nil"
  | .object _ => "object"
  | .array _ => "array"
  | .string _ => "string"
  | .integer _ => "integer"
  | .number _ => "number"
  | .datetime _ => "datetime"
  | .datetimeOnly => "datetime-only"
  | .dateOnly => "date-only"
  | .timeOnly => "time-only"
  | .file _ => "file"
  | .boolean _ => "boolean"
  | .union _ _ => "union"
  | .json _ _ => "json"
  | .unknown _ => "unknown"
  | .recursive _ => "recursive"

/-- A mutable cell of the heap: a base shape, a property map or a pattern property map. -/
inductive Loc where
  | base (a : Addr)
  | props (i : Nat)
  | patProps (i : Nat)

/-- The cells that make up the type at `a`: its base, its maps, and the cells of all types it mentions (items,
properties, pattern properties, union members, heads of recursive references), transitively. -/
inductive Part (h : St) : Addr → Loc → Prop
  | self (a : Addr) : Part h a (.base a)
  | props {a : Addr} {f : ObjectF} {i : Nat} : h.shapeAt a = some (.object f) → f.properties = some i → Part h a (.props i)
  | patProps {a : Addr} {f : ObjectF} {i : Nat} : h.shapeAt a = some (.object f) → f.patternProperties = some i →
      Part h a (.patProps i)
  | sub {a y : Addr} {s : Shape} {l : Loc} : h.shapeAt a = some s → ShapeEdge h s y → Part h y l → Part h a l
  | head {a y : Addr} {l : Loc} : h.shapeAt a = some (.recursive y) → Part h y l → Part h a l

/-- The two types share no cell. -/
def Apart (h : St) (a b : Addr) : Prop := ∀ l, Part h a l → ¬ Part h b l

/-- Scalar pairs for which inheritance narrows (C12 - C15): no competing patterns, no NaN bounds of the child, no
datetime format of the child against an undeclared one of the parent; JSON types accept everything. -/
def ScalarNarrows : Shape → Shape → Prop
  | .string f, .string g => f.pattern = none ∨ g.pattern = none
  | .number f, .number _ => f.minimum ≠ some .nan ∧ f.maximum ≠ some .nan
  | .datetime f, .datetime g => g = none → f = none
  | .array _, _ => False
  | .object _, _ => False
  | .union _ _, _ => False
  | _, .union _ _ => False
  | _, _ => True

/-- Conditions under which `a.Inherit(b)` can only narrow (C16).  The child `a` does not share cells between positions
that have a counterpart in the parent, the parent's paired positions are not cyclic and no inheritance from them is in
progress, and at each object: a closed parent is not re-opened and gets no new properties, the child does not re-declare
pattern properties, and its new properties do not match the parent's patterns. -/
inductive MayNarrow (isMatch : String → String → Bool) (h : St) : Addr → Addr → Prop
  | any {a b : Addr} : h.shapeAt b = some .any → MayNarrow isMatch h a b
  | scalar {a b : Addr} {t s : Shape} : h.shapeAt a = some t → h.shapeAt b = some s → Idle h b → ScalarNarrows t s →
      MayNarrow isMatch h a b
  | array {a b : Addr} {f g : ArrayF} : h.shapeAt a = some (.array f) → h.shapeAt b = some (.array g) → Idle h b →
      (∀ i j, f.items = some i → g.items = some j → MayNarrow isMatch h i j) →
      (∀ i j, f.items = some i → g.items = some j → ¬ Part h i (.base a) ∧ ¬ Part h j (.base b)) →
      MayNarrow isMatch h a b
  | object {a b : Addr} {f g : ObjectF} : h.shapeAt a = some (.object f) → h.shapeAt b = some (.object g) → Idle h b →
      -- closed parents stay closed
      (g.additionalProperties = some false → f.additionalProperties ≠ some true ∧
        ∀ p ∈ h.props f.properties, ∃ q ∈ h.props g.properties, q.1 = p.1) →
      -- pattern properties are not re-declared
      (f.patternProperties = none ∨ h.patProps g.patternProperties = []) →
      -- new properties are outside the parent's patterns
      (∀ p ∈ h.props f.properties, (∀ q ∈ h.props g.properties, q.1 ≠ p.1) →
        ∀ pp ∈ h.patProps g.patternProperties, isMatch pp.2.pattern p.1 = false) →
      -- keys of an ordered map are distinct, the child's map pointer is valid
      ((h.props g.properties).map (·.1)).Nodup →
      (∀ i, f.properties = some i → ∃ ps, h.pmaps[i]? = some ps) →
      -- properties declared on both sides
      (∀ k tp sp, Declares (h.props f.properties) k tp → Declares (h.props g.properties) k sp →
        MayNarrow isMatch h tp.base sp.base) →
      (∀ k tp sp, Declares (h.props f.properties) k tp → Declares (h.props g.properties) k sp →
        ¬ Part h tp.base (.base a) ∧ (∀ i, f.properties = some i → ¬ Part h tp.base (.props i)) ∧ ¬ Part h sp.base (.base b)) →
      -- and do not share cells
      (∀ k k' tp tp', k ≠ k' → Declares (h.props f.properties) k tp → Declares (h.props f.properties) k' tp' →
        (∃ q ∈ h.props g.properties, q.1 = k) → (∃ q ∈ h.props g.properties, q.1 = k') → Apart h tp.base tp'.base) →
      MayNarrow isMatch h a b

/-- From `h` to `h'` nothing declared was lost: entries were only added to property maps, behind those present; an object
keeps its maps, or was replaced by a union. -/
structure Grown (h h' : St) : Prop where
  bases : h.bases.length ≤ h'.bases.length
  props : ∀ (i : Nat) (ps : OMap Property), h.pmaps[i]? = some ps → ∃ more : OMap Property,
    h'.pmaps[i]? = some (ps ++ more : List _)
  patProps : ∀ (i : Nat) (ps : OMap PatternProperty), h.ppmaps[i]? = some ps → ∃ more : OMap PatternProperty,
    h'.ppmaps[i]? = some (ps ++ more : List _)
  objects : ∀ x f, h.shapeAt x = some (.object f) →
    (∃ f', h'.shapeAt x = some (.object f') ∧ (∀ i, f.properties = some i → f'.properties = some i) ∧
      (∀ i, f.patternProperties = some i → f'.patternProperties = some i)) ∨
    ∃ l e, h'.shapeAt x = some (.union l e)
  unions : ∀ x l e, h.shapeAt x = some (.union l e) → ∃ l' e', h'.shapeAt x = some (.union l' e')

end GoRaml.Spec
