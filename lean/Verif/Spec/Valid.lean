import Verif.Model.Heap

/-!
# Specification of type membership

Says in plain logic which values belong to a RAML type.  It does not mention the model's functions; it only reads the
data (facets, heap) and the external functions.
-/

namespace GoRaml.Spec

open GoRaml

/-- `x` respects an optional lower and an optional upper bound. -/
def Between {α : Type} (le : α → α → Prop) (lo hi : Option α) (x : α) : Prop :=
  (∀ m, lo = some m → le m x) ∧ (∀ m, hi = some m → le x m)

/-- Values of Go type int, uint, and floats whose truncation fits int64; no constraint on other kinds. -/
def InRange : GoVal → Prop
  | .int z => -(2 ^ 63) ≤ z ∧ z < 2 ^ 63
  | .uint n => n < 2 ^ 64
  | .float (.fin q) => -(2 ^ 63) - 1 < q ∧ q < 2 ^ 63
  | .float _ => False
  | _ => True

/-- The mathematical integer a Go number stands for: itself, or the float rounded toward zero. -/
inductive IntegerValue : GoVal → Int → Prop
  | int (z : Int) : IntegerValue (.int z) z
  | uint (n : Nat) : IntegerValue (.uint n) n
  | floatPos (q : Rat) : 0 ≤ q → IntegerValue (.float (.fin q)) q.floor
  | floatNeg (q : Rat) : q < 0 → IntegerValue (.float (.fin q)) q.ceil

/-- Membership in an integer type (C01). An enum value must be the Go `int` with that value (Go `uint` above 2^63). -/
def IntegerOK (f : IntegerF) (v : GoVal) : Prop :=
  ∃ i, IntegerValue v i ∧ Between (· ≤ ·) f.minimum f.maximum i ∧
    ∀ es, f.enum = some es → (if i < 2 ^ 63 then .int i else .uint i.toNat) ∈ es

/-- Order on float64 as reals extended with infinities; NaN is unordered. -/
inductive FloatLt : F64 → F64 → Prop
  | fin {p q : Rat} : p < q → FloatLt (.fin p) (.fin q)
  | infFin {q : Rat} : FloatLt .ninf (.fin q)
  | finInf {q : Rat} : FloatLt (.fin q) .pinf
  | infInf : FloatLt .ninf .pinf

/-- The float64 a Go number stands for; `conv` is the conversion of integers. -/
inductive NumberValue (conv : Int → F64) : GoVal → F64 → Prop
  | int (z : Int) : NumberValue conv (.int z) (conv z)
  | uint (n : Nat) : NumberValue conv (.uint n) (conv n)
  | float (x : F64) : NumberValue conv (.float x) x

/-- Membership in a number type (C02). -/
def NumberOK (conv : Int → F64) (f : NumberF) (v : GoVal) : Prop :=
  ∃ x, NumberValue conv v x ∧ Between (fun a b => ¬ FloatLt b a) f.minimum f.maximum x ∧
    ∀ es, f.enum = some es → x ≠ .nan ∧ .float x ∈ es

/-- Membership in a string type (C03); lengths are in bytes of the UTF-8 encoding. -/
def StringOK (isMatch : String → String → Bool) (f : StringF) (v : GoVal) : Prop :=
  ∃ s, v = .str s ∧ Between (· ≤ ·) f.minLength f.maxLength s.toUTF8.size ∧
    (∀ p, f.pattern = some p → isMatch p s = true) ∧ (∀ es, f.enum = some es → .str s ∈ es)

/-- Membership in a file type (C03). -/
def FileOK (f : FileF) (v : GoVal) : Prop :=
  ∃ s, v = .str s ∧ Between (· ≤ ·) f.minLength f.maxLength s.toUTF8.size

/-- Membership in a boolean type (C04). -/
def BooleanOK (enum : Option (List GoVal)) (v : GoVal) : Prop :=
  ∃ b, v = .bool b ∧ ∀ es, enum = some es → .bool b ∈ es

/-- Membership in a date/time type with the given layout (C04). -/
def TimeOK (parses : String → String → Bool) (layout : String) (v : GoVal) : Prop :=
  ∃ s, v = .str s ∧ parses layout s = true

/-- Membership in a `datetime` type: RFC 3339 unless the format says RFC 2616. -/
def DateTimeOK (parses : String → String → Bool) (format : Option String) (v : GoVal) : Prop :=
  match format with
  | none => TimeOK parses "2006-01-02T15:04:05Z07:00" v
  | some "rfc3339" => TimeOK parses "2006-01-02T15:04:05Z07:00" v
  | some "rfc2616" => TimeOK parses "Mon, 02 Jan 2006 15:04:05 GMT" v
  | some _ => ∃ s, v = .str s

/-- Membership in an array type whose items must satisfy `P` (C05, C06): item count, every item, and with uniqueItems
every item is hashable and no two positions have the same hash. -/
def ArrayOK (hash : GoVal → Option Nat) (P : Addr → GoVal → Prop) (f : ArrayF) (v : GoVal) : Prop :=
  ∃ l, v = .arr l ∧ Between (· ≤ ·) f.minItems f.maxItems l.length ∧
    (∀ a, f.items = some a → ∀ x ∈ l, P a x) ∧
    (f.uniqueItems = some true → ∃ hs : List Nat, l.map hash = hs.map some ∧ hs.Nodup)

/-- The pattern-property rule (C08): no pattern matches the key, or some matching one accepts the value. -/
def PatternRule (isMatch : String → String → Bool) (P : Addr → GoVal → Prop)
    (pps : OMap PatternProperty) (k : String) (x : GoVal) : Prop :=
  (∀ p ∈ pps, isMatch p.2.pattern k = false) ∨
  (∃ p ∈ pps, isMatch p.2.pattern k = true ∧ P p.2.base x)

/-- `p` is the declaration of property `k`: the first entry with that key (keys of an ordered map are distinct). -/
def Declares (ps : OMap Property) (k : String) (p : Property) : Prop :=
  ∃ pre post, ps = pre ++ (k, p) :: post ∧ ∀ q ∈ pre, q.1 ≠ k

/-- Membership in an object type (C07). -/
def ObjectOK (isMatch : String → String → Bool) (P : Addr → GoVal → Prop) (h : St) (f : ObjectF)
    (v : GoVal) : Prop :=
  ∃ m, v = .map m ∧ Between (· ≤ ·) f.minProperties f.maxProperties m.length ∧
    -- every required property is present
    (∀ p ∈ h.props f.properties, p.2.required = true → ∃ x, (p.1, x) ∈ m) ∧
    -- entries with a declaration satisfy it
    (∀ k x p, (k, x) ∈ m → Declares (h.props f.properties) k p → P p.base x) ∧
    -- entries without one are allowed by additionalProperties and by the pattern properties
    (∀ k x, (k, x) ∈ m → (∀ q ∈ h.props f.properties, q.1 ≠ k) →
      f.additionalProperties ≠ some false ∧ PatternRule isMatch P (h.patProps f.patternProperties) k x)

/-- One level of type membership; `P` is membership in the component types. -/
def Step (E : Ext) (h : St) (P : Addr → GoVal → Prop) (a : Addr) (v : GoVal) : Prop :=
  match h.shapeAt a with
  | none => False
  | some .any => True
  | some .nil => v = .nil
  | some (.object f) => ObjectOK E.reMatch P h f v
  | some (.array f) => ArrayOK E.hash P f v
  | some (.string f) => StringOK E.reMatch f v
  | some (.integer f) =>
    (InRange v ∧ IntegerOK f v) ∨
    -- floats that do not fit int64: whatever Go's conversion yields is judged
    (¬ InRange v ∧ ∃ x, v = .float x ∧ IntegerOK f (.int (E.truncOverflow x).toInt))
  | some (.number f) => NumberOK E.toF64 f v
  | some (.datetime fmt) => DateTimeOK E.timeParse fmt v
  | some .datetimeOnly => TimeOK E.timeParse "2006-01-02T15:04:05" v
  | some .dateOnly => TimeOK E.timeParse "2006-01-02" v
  | some .timeOnly => TimeOK E.timeParse "15:04:05" v
  | some (.file f) => FileOK f v
  | some (.boolean enum) => BooleanOK enum v
  | some (.union anyOf _) => ∃ m ∈ h.slice anyOf, P m v
  | some (.json _ _) => True
  | some (.unknown _) => False
  | some (.recursive head) => P head v

/-- Type membership: the least relation closed under `Step`. -/
def Valid (E : Ext) (h : St) (a : Addr) (v : GoVal) : Prop :=
  ∀ P : Addr → GoVal → Prop, (∀ a v, Step E h P a v → P a v) → P a v

/-- Go values as they occur at run time: `int` and `uint` are 64 bit numbers, at every depth. -/
inductive GoValue : GoVal → Prop
  | nil : GoValue .nil
  | bool (b) : GoValue (.bool b)
  | int (z) : -(2 ^ 63) ≤ z → z < 2 ^ 63 → GoValue (.int z)
  | uint (n) : n < 2 ^ 64 → GoValue (.uint n)
  | uint64 (n) : n < 2 ^ 64 → GoValue (.uint64 n)
  | float (f) : GoValue (.float f)
  | str (s) : GoValue (.str s)
  | arr (l) : (∀ x ∈ l, GoValue x) → GoValue (.arr l)
  | map (m) : (∀ kv ∈ m, GoValue kv.2) → GoValue (.map m)

/-- Every base shape of the heap holds a shape, and every address it mentions exists: what parsing and
resolving leave behind (no nil `Shape`, no nil element). -/
def Closed (h : St) : Prop :=
  ∀ a b, h.base a = some b → ∃ s, b.shape = some s ∧
    match s with
    | .array f => ∀ i, f.items = some i → i < h.bases.length
    | .object f => (∀ p ∈ h.props f.properties, p.2.base < h.bases.length) ∧
        (∀ p ∈ h.patProps f.patternProperties, p.2.base < h.bases.length)
    | .union anyOf _ => ∀ m ∈ h.slice anyOf, m < h.bases.length
    | .recursive head => head < h.bases.length
    | _ => True

/-- No type reaches itself through union members and recursive references alone: each cycle passes an
array item or an object property. -/
def Guarded (h : St) : Prop :=
  ∃ rank : Addr → Nat, ∀ a,
    (∀ anyOf e, h.shapeAt a = some (.union anyOf e) → ∀ m ∈ h.slice anyOf, rank m < rank a) ∧
    (∀ head, h.shapeAt a = some (.recursive head) → rank head < rank a)

/-- Two values that differ only in the order in which map entries are listed, at any depth. -/
inductive SameUpToMapOrder : GoVal → GoVal → Prop
  | refl (v) : SameUpToMapOrder v v
  | trans {u v w} : SameUpToMapOrder u v → SameUpToMapOrder v w → SameUpToMapOrder u w
  | perm {m m' : List (String × GoVal)} : m.Perm m' → SameUpToMapOrder (.map m) (.map m')
  | inArr {x y} (pre post) : SameUpToMapOrder x y →
      SameUpToMapOrder (.arr (pre ++ x :: post)) (.arr (pre ++ y :: post))
  | inMap {x y} (k pre post) : SameUpToMapOrder x y →
      SameUpToMapOrder (.map (pre ++ (k, x) :: post)) (.map (pre ++ (k, y) :: post))

end GoRaml.Spec
