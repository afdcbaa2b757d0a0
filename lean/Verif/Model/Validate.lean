import Verif.Model.Scalars

/-!
# Validation of a value against a shape (scalars.go, complex.go, shape.go:120-122)

`validate E h n a v` is the call `base.Validate(v)` for the base shape at address `a` of heap `h`, cut
off after `n` nested calls (`Out.diverge`).  The heap is not changed by validation.  The context
path only affects error texts and is dropped.
-/

namespace GoRaml

/-- complex.go:101-105: `if s.Items != nil { s.Items.Shape.validate(item) }`. -/
def validateItem (rec : Addr → GoVal → Out Unit) (items : Option Addr) (x : GoVal) : Out Unit :=
  match items with
  | some a => rec a x
  | none => .ok ()

/-- complex.go:99-114: the loop over array items.  `seen` is the map `uniqueItems`. -/
def validateItems (E : Ext) (rec : Addr → GoVal → Out Unit) (items : Option Addr) (unique : Bool) :
    List GoVal → List Nat → Out (List Nat)
  | [], seen => .ok seen
  | x :: xs, seen =>
    (validateItem rec items x).bind fun _ =>
    if unique then
      match E.hash x with
      | none => .err "hash array item"
      | some k => validateItems E rec items unique xs (if k ∈ seen then seen else k :: seen)
    else validateItems E rec items unique xs seen

/-- complex.go:84-118 `ArrayShape.validate`. -/
def arrayValidate (E : Ext) (rec : Addr → GoVal → Out Unit) (s : ArrayF) (v : GoVal) : Out Unit :=
  match v with
  | .arr i =>
    if belowMin natLt i.length s.minItems then .err "array must have at least"
    else if aboveMax natLt i.length s.maxItems then .err "array must have not more than"
    else
      let unique := s.uniqueItems == some true
      (validateItems E rec s.items unique i []).bind fun seen =>
      if unique && seen.length != i.length then .err "array contains duplicate items" else .ok ()
  | _ => .err "invalid type"

/-- `props[key]` of the input map. -/
def GoVal.field (m : List (String × GoVal)) (k : String) : Option GoVal :=
  match m with
  | [] => none
  | (k', v) :: rest => if k' = k then some v else GoVal.field rest k

/-- complex.go:476-487 `findMissingRequired`. -/
def findMissingRequired (ps : OMap Property) (m : List (String × GoVal)) : List String :=
  (ps.filter fun p => p.2.required && (GoVal.field m p.1).isNone).map (·.1)

/-- complex.go:395-427 `validatePatternProperty`: the first matching pattern whose type accepts wins;
an error if some pattern matched and none accepted. -/
def validatePatternProperty (E : Ext) (rec : Addr → GoVal → Out Unit) (k : String) (item : GoVal) :
    OMap PatternProperty → Bool → Out Unit
  | [], hadError => if hadError then .err "validate pattern property" else .ok ()
  | (_, pp) :: rest, hadError =>
    if !E.reMatch pp.pattern k then validatePatternProperty E rec k item rest hadError
    else match rec pp.base item with
      | .ok _ => .ok ()
      | .err _ => validatePatternProperty E rec k item rest true
      | .panic m => .panic m
      | .diverge => .diverge

/-- complex.go:453-472, 429-445: body of the loop over the entries of the value. -/
def validateEntry (E : Ext) (rec : Addr → GoVal → Out Unit) (ps : OMap Property)
    (pps : OMap PatternProperty) (closed : Bool) (kv : String × GoVal) : Out Unit :=
  match OMap.get ps kv.1 with
  | some p => rec p.base kv.2
  | none =>
    if closed then .err "unexpected additional property"
    else validatePatternProperty E rec kv.1 kv.2 pps false

/-- complex.go:489-508, 447-474 `ObjectShape.validate` and `validateProperties`. -/
def objectValidate (E : Ext) (rec : Addr → GoVal → Out Unit) (h : St) (s : ObjectF) (v : GoVal) :
    Out Unit :=
  match v with
  | .map m =>
    if belowMin natLt m.length s.minProperties then .err "object must have at least"
    else if aboveMax natLt m.length s.maxProperties then .err "object must have not more than"
    else if !(findMissingRequired (h.props s.properties) m).isEmpty
    then .err "missing required properties"
    else Out.forEach (validateEntry E rec (h.props s.properties) (h.patProps s.patternProperties)
      (s.additionalProperties == some false)) m
  | _ => .err "invalid type"

/-- complex.go:847-870 `UnionShape.validate`. -/
def unionValidate (rec : Addr → GoVal → Out Unit) (v : GoVal) : List Addr → Out Unit
  | [] => .err "value does not match any type"
  | a :: rest =>
    match rec a v with
    | .ok _ => .ok ()
    | .err _ => unionValidate rec v rest
    | .panic m => .panic m
    | .diverge => .diverge

/-- `Shape.validate` by dynamic type; `rec` is the same method on another base's shape.
The remaining methods are: any scalars.go:1280, json complex.go:948, unknown complex.go:1015,
recursive complex.go:1075. -/
def validateShape (E : Ext) (rec : Addr → GoVal → Out Unit) (h : St) (s : Shape) (v : GoVal) :
    Out Unit :=
  match s with
  | .any => .ok ()
  | .nil => nilValidate v
  | .object f => objectValidate E rec h f v
  | .array f => arrayValidate E rec f v
  | .string f => f.validate E v
  | .integer f => f.validate E v
  | .number f => f.validate E v
  | .datetime fmt => dateTimeValidate E fmt v
  | .datetimeOnly => timeValidate E layoutDateTime v
  | .dateOnly => timeValidate E layoutDateOnly v
  | .timeOnly => timeValidate E layoutTimeOnly v
  | .file f => f.validate v
  | .boolean enum => booleanValidate enum v
  | .union anyOf _ => unionValidate rec v (h.slice anyOf)
  | .json _ _ => .ok ()
  | .unknown _ => .err "cannot validate against unknown shape"
  | .recursive head => rec head v

/-- shape.go:120-122 `BaseShape.Validate`; a nil `Shape` is a nil dereference. -/
def validate (E : Ext) (h : St) : Nat → Addr → GoVal → Out Unit
  | 0, _, _ => .diverge
  | n + 1, a, v =>
    match h.shapeAt a with
    | none => .panic "nil pointer dereference"
    | some s => validateShape E (validate E h n) h s v

/-- `base.Validate(v)` returns nil. -/
def Accepts (E : Ext) (h : St) (a : Addr) (v : GoVal) : Prop := ∃ n, validate E h n a v = .ok ()

/-- `base.Validate(v)` returns an error. -/
def Rejects (E : Ext) (h : St) (a : Addr) (v : GoVal) : Prop := ∃ n m, validate E h n a v = .err m

end GoRaml
