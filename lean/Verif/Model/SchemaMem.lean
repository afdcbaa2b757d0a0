import Verif.Model.SchemaMap

/-!
# Schemas in memory (schema.go)

Here a schema is an object in memory that points to others, as in Go, so that one sees what a copy shares with its original.  Each kind of object has a store of
its own; a pointer, slice or map is an index into a store, nil is `none`.  Simplifications: a slice covers the whole of its array; values of type `any` are not looked
into; the entries of a Go map are a list.
-/

namespace GoRaml

/-- A `JSONSchemaRAML` object (schema.go:30-83, 385-390); in a plain `JSONSchema` the last three fields are nil.  `flat` has the fields that are no pointers, slices or
maps; its other fields are not used. -/
structure SNode where
  flat : JSCore := {}
  /-- `*uint64` -/
  maxLength : Option Nat := none
  minLength : Option Nat := none
  maxItems : Option Nat := none
  minItems : Option Nat := none
  maxContains : Option Nat := none
  minContains : Option Nat := none
  maxProperties : Option Nat := none
  minProperties : Option Nat := none
  /-- `*bool` -/
  uniqueItems : Option Nat := none
  additionalProperties : Option Nat := none
  /-- `[]string` -/
  required : Option Nat := none
  /-- `[]any` -/
  enum : Option Nat := none
  examples : Option Nat := none
  /-- `[]T` -/
  allOf : Option Nat := none
  anyOf : Option Nat := none
  oneOf : Option Nat := none
  /-- `T`, a pointer to a schema -/
  not_ : Option Nat := none
  if_ : Option Nat := none
  then_ : Option Nat := none
  else_ : Option Nat := none
  items : Option Nat := none
  propertyNames : Option Nat := none
  /-- `*orderedmap.OrderedMap[string, T]` and `map[string]T` -/
  properties : Option Nat := none
  patternProperties : Option Nat := none
  definitions : Option Nat := none
  facetDefinitions : Option Nat := none
  /-- `*orderedmap.OrderedMap[string, any]` -/
  annotations : Option Nat := none
  facetData : Option Nat := none

/-- The stores. -/
structure Mem where
  nodes : List SNode := []
  nats : List Nat := []
  bools : List Bool := []
  strs : List (List String) := []
  vals : List (List GoVal) := []
  ptrs : List (List (Option Nat)) := []
  maps : List (List (String × Option Nat)) := []
  vmaps : List (List (String × GoVal)) := []

namespace Mem

/-- `&JSONSchema{…}`. -/
def newNode (x : SNode) : M Mem Nat := fun h => (.ok h.nodes.length, { h with nodes := h.nodes ++ [x] })
/-- `make([]string, …)`. -/
def newStrs (l : List String) : M Mem Nat := fun h => (.ok h.strs.length, { h with strs := h.strs ++ [l] })
/-- `make([]any, …)`. -/
def newVals (l : List GoVal) : M Mem Nat := fun h => (.ok h.vals.length, { h with vals := h.vals ++ [l] })
/-- `make([]T, …)`. -/
def newPtrs (l : List (Option Nat)) : M Mem Nat := fun h => (.ok h.ptrs.length, { h with ptrs := h.ptrs ++ [l] })
/-- `orderedmap.New[string, T]`, `make(map[string]T, …)`. -/
def newMap (l : List (String × Option Nat)) : M Mem Nat := fun h => (.ok h.maps.length, { h with maps := h.maps ++ [l] })
/-- `orderedmap.New[string, any]`. -/
def newVMap (l : List (String × GoVal)) : M Mem Nat := fun h => (.ok h.vmaps.length, { h with vmaps := h.vmaps ++ [l] })

end Mem

/-- What a slice or map holds; nil holds nothing. -/
def held {α : Type} (store : List (List α)) (p : Option Nat) : List α := (p.bind (store[·]?)).getD []

/-- schema.go:101-104 `if len(js.Required) > 0 { … }`: otherwise the field is what `ShallowCopy` put there. -/
def memCopyStrs (p : Option Nat) : M Mem (Option Nat) := fun h =>
  match held h.strs p with
  | [] => (.ok p, h)
  | l => (M.bind (Mem.newStrs l) fun i => M.ret (some i)) h

/-- schema.go:106-114, the same for `Examples` and `Enum`. -/
def memCopyVals (p : Option Nat) : M Mem (Option Nat) := fun h =>
  match held h.vals p with
  | [] => (.ok p, h)
  | l => (M.bind (Mem.newVals l) fun i => M.ret (some i)) h

/-- schema.go:369-371, 421-423: `DeepCopy` of nil is nil. -/
def memCopyRef (rec : Nat → M Mem Nat) : Option Nat → M Mem (Option Nat)
  | none => M.ret none
  | some a => M.bind (rec a) fun c => M.ret (some c)

/-- schema.go:116-135: `AnyOf`, `AllOf`, `OneOf`. -/
def memCopyPtrs (rec : Nat → M Mem Nat) (p : Option Nat) : M Mem (Option Nat) := fun h =>
  match held h.ptrs p with
  | [] => (.ok p, h)
  | l => (M.bind (M.collect (memCopyRef rec) l) fun l' => M.bind (Mem.newPtrs l') fun i => M.ret (some i)) h

/-- One entry of a map of schemas. -/
def memCopyEntry (rec : Nat → M Mem Nat) (e : String × Option Nat) : M Mem (String × Option Nat) :=
  M.bind (memCopyRef rec e.2) fun c => M.ret (e.1, c)

/-- schema.go:144-163: `Properties`, `PatternProperties`, `Definitions`. -/
def memCopyMap (rec : Nat → M Mem Nat) (p : Option Nat) : M Mem (Option Nat) := fun h =>
  match held h.maps p with
  | [] => (.ok p, h)
  | l => (M.bind (M.collect (memCopyEntry rec) l) fun l' => M.bind (Mem.newMap l') fun i => M.ret (some i)) h

/-- schema.go:431-436: `FacetDefinitions`, new whenever it is not nil. -/
def memCopyDefs (rec : Nat → M Mem Nat) : Option Nat → M Mem (Option Nat)
  | none => M.ret none
  | some i => fun h => (M.bind (M.collect (memCopyEntry rec) (held h.maps (some i))) fun l' => M.bind (Mem.newMap l') fun i => M.ret (some i)) h

/-- schema.go:425-430, 437-442: `Annotations` and `FacetData`. -/
def memCopyVMap : Option Nat → M Mem (Option Nat)
  | none => M.ret none
  | some i => fun h => (M.bind (Mem.newVMap (held h.vmaps (some i))) fun i => M.ret (some i)) h

/-- schema.go:95-166, 420-444: the fields of the copy of `x`. -/
def memCopyNode (rec : Nat → M Mem Nat) (x : SNode) : M Mem SNode :=
  M.bind (memCopyStrs x.required) fun required =>
  M.bind (memCopyVals x.examples) fun examples =>
  M.bind (memCopyVals x.enum) fun enum =>
  M.bind (memCopyPtrs rec x.anyOf) fun anyOf =>
  M.bind (memCopyPtrs rec x.allOf) fun allOf =>
  M.bind (memCopyPtrs rec x.oneOf) fun oneOf =>
  M.bind (memCopyRef rec x.not_) fun not_ =>
  M.bind (memCopyRef rec x.if_) fun if_ =>
  M.bind (memCopyRef rec x.then_) fun then_ =>
  M.bind (memCopyRef rec x.else_) fun else_ =>
  M.bind (memCopyRef rec x.items) fun items =>
  M.bind (memCopyRef rec x.propertyNames) fun propertyNames =>
  M.bind (memCopyMap rec x.properties) fun properties =>
  M.bind (memCopyMap rec x.patternProperties) fun patternProperties =>
  M.bind (memCopyMap rec x.definitions) fun definitions =>
  M.bind (memCopyVMap x.annotations) fun annotations =>
  M.bind (memCopyDefs rec x.facetDefinitions) fun facetDefinitions =>
  M.bind (memCopyVMap x.facetData) fun facetData =>
  M.ret { x with required, examples, enum, anyOf, allOf, oneOf, not_, if_, then_, else_, items, propertyNames, properties, patternProperties, definitions
                 annotations, facetDefinitions, facetData }

/-- schema.go:420-444 `JSONSchemaRAML.DeepCopy` (and 369-374 `JSONSchema.DeepCopy`) of the schema at `a`, cut off after `n` nested calls. -/
def memCopy : Nat → Nat → M Mem Nat
  | 0, _ => M.diverge
  | n + 1, a => fun h =>
    match h.nodes[a]? with
    | none => (.panic "nil pointer dereference", h)
    | some x => (M.bind (memCopyNode (memCopy n) x) Mem.newNode) h

/-- schema.go:405-410: `FacetDefinitions` in a shallow copy, a new map with the same schemas. -/
def memShallowDefs : Option Nat → M Mem (Option Nat)
  | none => M.ret none
  | some i => fun h => (M.bind (Mem.newMap (held h.maps (some i))) fun i => M.ret (some i)) h

/-- schema.go:86-93, 394-418 `JSONSchemaRAML.ShallowCopy` of the schema at `a` (and 362-367 `JSONSchema.ShallowCopy`, where the three fields are nil).  The copy of nil is nil. -/
def memShallow (a : Nat) : M Mem Nat := fun h =>
  match h.nodes[a]? with
  | none => (.panic "nil pointer dereference", h)
  | some x =>
    (M.bind (memCopyVMap x.annotations) fun annotations =>
    M.bind (memShallowDefs x.facetDefinitions) fun facetDefinitions =>
    M.bind (memCopyVMap x.facetData) fun facetData =>
    Mem.newNode { x with annotations, facetDefinitions, facetData }) h

/-- `copy.Properties.Set(k, s)` and the like, for the map at `i`. -/
def Mem.setEntry (h : Mem) (i : Nat) (k : String) (s : Option Nat) : Mem := { h with maps := h.maps.modify i fun m => OMap.set m k s }

/-- `*copy.MaxLength = n` and the like, for the number at `i`. -/
def Mem.setNat (h : Mem) (i n : Nat) : Mem := { h with nats := h.nats.set i n }

end GoRaml
