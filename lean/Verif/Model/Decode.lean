import Verif.Model.Node
import Verif.Model.Facets
import Verif.Model.Lookup
import Verif.Model.Mark

/-!
# Decoding types and fragments from YAML (shape.go, complex.go, scalars.go, fragment.go, parse.go)

The functions call each other through nested YAML nodes and through files.  `Calls` holds the three functions by which the recursion
goes on; `calls E n` is their version cut off after `n` nested calls.  Hooks are left out.

Simplification: a Go error in the middle of one facet, one property map or one fragment may leave the part decoded so far in the object under
construction; here the object is assigned after the facet, map or fragment has been decoded.
-/

namespace GoRaml

/-- The recursive calls. -/
structure Calls where
  /-- `makeNewShapeYAML(v, name, location)`. -/
  makeShape : YNode → String → String → M St Addr
  /-- `parseDataType(path)`: an index into `St.dts`. -/
  parseDataType : String → M St Nat
  /-- `parseLibrary(path)`: an index into `St.libs`. -/
  parseLibrary : String → M St Nat

namespace Heap

/-- `r.unresolvedShapes.PushBack(base)`. -/
def pushUnresolved (a : Addr) : M St Unit := fun h => (.ok (), { h with unresolved := h.unresolved ++ [a] })

/-- A new `Library`. -/
def newLib (l : Lib) : M St Nat := fun h => (.ok h.libs.length, { h with libs := h.libs ++ [l] })

/-- A new `NamedExample`. -/
def newNE (m : OMap Example) : M St Nat := fun h => (.ok h.nes.length, { h with nes := h.nes ++ [m] })

/-- `r.PutTypeIntoFragment`. -/
def putType (name location : String) (a : Addr) : M St Unit := fun h =>
  (.ok (), { h with fragTypes := putTypeInto h.fragTypes name location a })

/-- `r.PutAnnotationTypeIntoFragment`. -/
def putAnnotationType (name location : String) (a : Addr) : M St Unit := fun h =>
  (.ok (), { h with fragAnnotationTypes := putTypeInto h.fragAnnotationTypes name location a })

/-- `include.Link = sublib` in a library. -/
def linkLib (i : Nat) (key value : String) (link : Option Nat) : M St Unit := fun h =>
  (.ok (), { h with libs := h.libs.modify i fun l => { l with uses := OMap.set l.uses key (value, link) } })

/-- `include.Link = sublib` in a data type. -/
def linkDT (i : Nat) (key value : String) (link : Option Nat) : M St Unit := fun h =>
  (.ok (), { h with dts := h.dts.modify i fun d => { d with uses := OMap.set d.uses key (value, link) } })

end Heap

/-! ## Facets -/

/-- scalars.go:24-37 `MakeEnum`. -/
def makeEnum (E : Env) (v : YNode) (location : String) : Out (List GoVal) :=
  if v.kind ≠ .sequence then .err "enum must be sequence node"
  else v.content.foldl (fun acc n => acc.bind fun l => (makeRootNode E n location).bind fun d => .ok (l ++ [d])) (.ok [])

/-- scalars.go:228-274 `IntegerShape.unmarshalYAMLNode`; `none` is the default case. -/
def integerFacet (E : Env) (location : String) (f : IntegerF) (k : String) (v : YNode) : Option (Out IntegerF) :=
  if k = "minimum" then
    some (if v.tag ≠ "!!int" then .err "minimum must be integer"
      else (orErr "invalid minimum value" (E.bigInt v.value)).bind fun n => .ok { f with minimum := some n })
  else if k = "maximum" then
    some (if v.tag ≠ "!!int" then .err "maximum must be integer"
      else (orErr "invalid maximum value" (E.bigInt v.value)).bind fun n => .ok { f with maximum := some n })
  else if k = "multipleOf" then
    some ((orErr "decode multipleOf" (E.decodeFloat v)).bind fun n => .ok { f with multipleOf := n })
  else if k = "format" then
    some (if v.value ∉ ["int8", "int16", "int32", "int", "int64", "long"] then .err "invalid format"
      else (orErr "decode format" (E.decodeStr v)).bind fun s => .ok { f with format := s })
  else if k = "enum" then some ((makeEnum E v location).bind fun e => .ok { f with enum := some e })
  else none

/-- scalars.go:440-483 `NumberShape.unmarshalYAMLNodes`: one facet. -/
def numberFacet (E : Env) (location : String) (f : NumberF) (k : String) (v : YNode) : Option (Out NumberF) :=
  if k = "minimum" then some ((orErr "decode minimum" (E.decodeFloat v)).bind fun n => .ok { f with minimum := n })
  else if k = "maximum" then some ((orErr "decode maximum" (E.decodeFloat v)).bind fun n => .ok { f with maximum := n })
  else if k = "format" then
    some (if v.value ∉ ["float", "double"] then .err "invalid format"
      else (orErr "decode format" (E.decodeStr v)).bind fun s => .ok { f with format := s })
  else if k = "enum" then some ((makeEnum E v location).bind fun e => .ok { f with enum := some e })
  else if k = "multipleOf" then
    some ((orErr "decode multipleOf" (E.decodeFloat v)).bind fun n => .ok { f with multipleOf := n })
  else none

/-- scalars.go:619-661 `StringShape.unmarshalYAMLNodes`: one facet. -/
def stringFacet (E : Env) (location : String) (f : StringF) (k : String) (v : YNode) : Option (Out StringF) :=
  if k = "minLength" then some ((orErr "decode minLength" (E.decodeUint v)).bind fun n => .ok { f with minLength := n })
  else if k = "maxLength" then some ((orErr "decode maxLength" (E.decodeUint v)).bind fun n => .ok { f with maxLength := n })
  else if k = "pattern" then
    some (if v.tag ≠ "!!str" then .err "pattern must be string"
      else if E.reCompiles v.value then .ok { f with pattern := some v.value } else .err "decode pattern")
  else if k = "enum" then some ((makeEnum E v location).bind fun e => .ok { f with enum := some e })
  else none

/-- scalars.go:790-805: the members of `fileTypes`. -/
def makeFileTypes (E : Env) (v : YNode) (location : String) : Out (List GoVal) :=
  if v.kind ≠ .sequence then .err "fileTypes must be sequence node"
  else v.content.foldl (fun acc n => acc.bind fun l =>
    if n.tag ≠ "!!str" then .err "member of fileTypes must be string"
    else (makeRootNode E n location).bind fun d => .ok (l ++ [d])) (.ok [])

/-- scalars.go:773-815 `FileShape.unmarshalYAMLNodes`: one facet. -/
def fileFacet (E : Env) (location : String) (f : FileF) (k : String) (v : YNode) : Option (Out FileF) :=
  if k = "minLength" then some ((orErr "decode minLength" (E.decodeUint v)).bind fun n => .ok { f with minLength := n })
  else if k = "maxLength" then some ((orErr "decode maxLength" (E.decodeUint v)).bind fun n => .ok { f with maxLength := n })
  else if k = "fileTypes" then some ((makeFileTypes E v location).bind fun l => .ok { f with fileTypes := some l })
  else none

/-- complex.go:178-221 `ArrayShape.unmarshalYAMLNodes`: one facet. -/
def arrayFacet (E : Env) (c : Calls) (location : String) (f : ArrayF) (k : String) (v : YNode) : Option (M St ArrayF) :=
  if k = "minItems" then some (M.lift ((orErr "decode" (E.decodeUint v)).bind fun n => .ok { f with minItems := n }))
  else if k = "maxItems" then some (M.lift ((orErr "decode" (E.decodeUint v)).bind fun n => .ok { f with maxItems := n }))
  else if k = "items" then some (M.bind (c.makeShape v "items" location) fun a => M.ret { f with items := some a })
  else if k = "uniqueItems" then some (M.lift ((orErr "decode" (E.decodeBool v)).bind fun n => .ok { f with uniqueItems := n }))
  else none

/-- `if m == nil { m = orderedmap.New() }`. -/
def ensureProps (p : Option Nat) : M St Nat :=
  match p with
  | some i => M.ret i
  | none => Heap.newProps []

/-- `if m == nil { m = orderedmap.New() }`. -/
def ensurePatProps (p : Option Nat) : M St Nat :=
  match p with
  | some i => M.ret i
  | none => Heap.newPatProps []

/-- complex.go:749-778 `makeProperty` / 717-738 `makePatternProperty`: make the type, then name the property (`declareProperty`). -/
def makeDeclared (E : Env) (c : Calls) (location nodeName : String) (data : YNode) : M St Declared :=
  M.bind (c.makeShape data nodeName location) fun a =>
  M.bind (Heap.getBase a) fun b =>
  M.lift (declareProperty E.toExt nodeName (.ok (a, b.required)))

/-- complex.go:243-273 `unmarshalProperty`, `unmarshalPatternProperties`. -/
def unmarshalProperty (E : Env) (c : Calls) (location nodeName : String) (data : YNode) (f : ObjectF) : M St ObjectF :=
  if isPatternName (chompImplicitOptional nodeName).1 then
    M.bind (ensurePatProps f.patternProperties) fun i =>
    M.bind (makeDeclared E c location nodeName data) fun d =>
    match d with
    | .pattern key p => M.bind (Heap.setPatProp i key p) fun _ => M.ret { f with patternProperties := some i }
    | .property _ => M.ret f
  else
    M.bind (ensureProps f.properties) fun i =>
    M.bind (makeDeclared E c location nodeName data) fun d =>
    match d with
    | .property p => M.bind (Heap.setProp i p.name p) fun _ => M.ret { f with properties := some i }
    | .pattern _ _ => M.ret f

/-- complex.go:308-316: the loop over `properties`. -/
def unmarshalProperties (E : Env) (c : Calls) (location : String) : List YNode → ObjectF → M St ObjectF
  | k :: v :: rest, f => M.bind (unmarshalProperty E c location k.value v f) fun f' => unmarshalProperties E c location rest f'
  | _, f => M.ret f

/-- complex.go:275-328 `ObjectShape.unmarshalYAMLNode`. -/
def objectFacet (E : Env) (c : Calls) (location : String) (f : ObjectF) (k : String) (v : YNode) : Option (M St ObjectF) :=
  if k = "additionalProperties" then
    some (M.lift ((orErr "decode" (E.decodeBool v)).bind fun n => .ok { f with additionalProperties := n }))
  else if k = "discriminator" then
    some (M.lift ((orErr "decode" (E.decodeStr v)).bind fun n => .ok { f with discriminator := n }))
  else if k = "discriminatorValue" then
    some (M.lift ((orErr "decode" (E.decodeAny v)).bind fun n => .ok { f with discriminatorValue := n }))
  else if k = "minProperties" then
    some (M.lift ((orErr "decode" (E.decodeUint v)).bind fun n => .ok { f with minProperties := n }))
  else if k = "maxProperties" then
    some (M.lift ((orErr "decode" (E.decodeUint v)).bind fun n => .ok { f with maxProperties := n }))
  else if k = "properties" then
    some (if v.content.length % 2 ≠ 0 then M.err "odd number of nodes" else unmarshalProperties E c location v.content f)
  else none

/-- scalars.go:897-921, 1003-1028 and the functions above: one facet of a shape, `none` if it is a custom facet of this type.  The other
types (any, nil, datetime-only, date-only, time-only; scalars.go:1086, 1159, 1232, 1297, 1365) have custom facets only. -/
def shapeFacet (E : Env) (c : Calls) (location : String) (s : Shape) (k : String) (v : YNode) : Option (M St Shape) :=
  match s with
  | .integer f => (integerFacet E location f k v).map fun o => M.lift (o.bind fun f => .ok (.integer f))
  | .number f => (numberFacet E location f k v).map fun o => M.lift (o.bind fun f => .ok (.number f))
  | .string f => (stringFacet E location f k v).map fun o => M.lift (o.bind fun f => .ok (.string f))
  | .file f => (fileFacet E location f k v).map fun o => M.lift (o.bind fun f => .ok (.file f))
  | .boolean _ => if k = "enum" then some (M.lift ((makeEnum E v location).bind fun e => .ok (.boolean (some e)))) else none
  | .datetime _ =>
    if k = "format" then
      some (M.lift (if v.value ∉ ["rfc3339", "rfc2616"] then .err "invalid format"
        else (orErr "decode format" (E.decodeStr v)).bind fun s => .ok (.datetime s)))
    else none
  | .array f => (arrayFacet E c location f k v).map fun m => M.bind m fun f => M.ret (.array f)
  | .object f => (objectFacet E c location f k v).map fun m => M.bind m fun f => M.ret (.object f)
  | _ => none

/-- The default case: `s.CustomShapeFacets.Set(node.Value, n)` with the value of the node. -/
def customFacet (E : Env) (a : Addr) (location : String) (k : String) (v : YNode) : M St Unit :=
  M.bind (M.lift (makeRootNode E v location)) fun n =>
  M.bind (Heap.getBase a) fun b =>
  match b.facets with
  | none => M.panic "nil pointer dereference"
  | some i => Heap.setFacet i k n

/-- The body of the loop in `unmarshalYAMLNodes`. -/
def unmarshalFacet (E : Env) (c : Calls) (a : Addr) (location : String) (s : Shape) (k : String) (v : YNode) : M St Shape :=
  match shapeFacet E c location s k v with
  | some m => M.bind m fun s' => M.bind (setShape a s') fun _ => M.ret s'
  | none => M.bind (customFacet E a location k v) fun _ => M.ret s

/-- The loop in `unmarshalYAMLNodes`. -/
def unmarshalFacets (E : Env) (c : Calls) (a : Addr) (location : String) : List YNode → Shape → M St Unit
  | k :: v :: rest, s => M.bind (unmarshalFacet E c a location s k.value v) fun s' => unmarshalFacets E c a location rest s'
  | _, _ => M.ret ()

/-- `shape.unmarshalYAMLNodes(facets)` for the shape `s` of `a`, by dynamic type: scalars.go:276, 440, 619, 773, 897, 1003, 1086, 1159, 1232,
1297, 1365, complex.go:178, 330, 809 (union), 953 (json), 1019 (unknown), 1043 (recursive). -/
def unmarshalYAMLNodes (E : Env) (c : Calls) (a : Addr) (location : String) (s : Shape) (facets : Option (List YNode)) : M St Unit :=
  match s with
  | .union _ _ => M.ret ()
  | .json _ _ => M.ret ()
  | .recursive _ => M.ret ()
  | .unknown _ => setShape a (.unknown facets)
  | s =>
    let l := facets.getD []
    if l.length % 2 ≠ 0 then M.err "odd number of nodes" else unmarshalFacets E c a location l s

/-- shape.go:563-596: the new shape object for a type name. -/
def emptyShape (shapeType : String) : Shape :=
  if shapeType = "any" then .any
  else if shapeType = "nil" then .nil
  else if shapeType = "object" then .object {}
  else if shapeType = "array" then .array {}
  else if shapeType = "string" then .string {}
  else if shapeType = "integer" then .integer {}
  else if shapeType = "number" then .number {}
  else if shapeType = "datetime" then .datetime none
  else if shapeType = "datetime-only" then .datetimeOnly
  else if shapeType = "date-only" then .dateOnly
  else if shapeType = "time-only" then .timeOnly
  else if shapeType = "file" then .file {}
  else if shapeType = "boolean" then .boolean none
  else if shapeType = "union" then .union none none
  else if shapeType = "json" then .json "" none
  else .unknown none

/-- shape.go:554-606 `MakeConcreteShapeYAML`.  The shape object it returns is the one it stores in the base. -/
def makeConcrete (E : Env) (c : Calls) (a : Addr) (shapeType : String) (facets : Option (List YNode)) : M St Unit :=
  M.bind (Heap.getBase a) fun b =>
  M.bind (Heap.updBase a fun b => { b with type := shapeType, shape := some (emptyShape shapeType) }) fun _ =>
  unmarshalYAMLNodes E c a b.location (emptyShape shapeType) facets

/-! ## Types -/

/-- parse.go:257-269 `decodeNamedExample`, fragment.go:435-452 `NamedExample.UnmarshalYAML`: the loop over the examples. -/
def namedExamples (E : Env) (location : String) : List YNode → OMap Example → M St (OMap Example)
  | [], m => M.ret m
  | [_], _ => M.panic "index out of range"
  | k :: v :: rest, m => M.bind (makeExample E v location) fun ex => namedExamples E location rest (OMap.set m k.value ex)

/-- The node a fragment is decoded from: yaml.v3 passes the content of the document to `UnmarshalYAML`. -/
def docRoot : YNode → YNode
  | .mk .document _ _ (n :: _) => n
  | n => n

/-- `decoder.Decode(&fragment)`: parse the text and call `UnmarshalYAML` on the content, which must be a mapping.  For a null document yaml.v3
sets the pointer to nil instead; the code dereferences it right after. -/
def decodeFragment {α : Type} (E : Env) (text : String) (unmarshal : YNode → M St α) : M St α :=
  match E.yamlParse text with
  | none => M.err "decode fragment"
  | some d =>
    if (docRoot d).tag = "!!null" then M.panic "nil pointer dereference"
    else if (docRoot d).kind ≠ .mapping then M.err "must be map"
    else unmarshal (docRoot d)

/-- parse.go:257-269 `decodeNamedExample`.  (For a null document the nil pointer is registered without being dereferenced; this case
is a panic in the model.) -/
def decodeNamedExample (E : Env) (text path : String) : M St Nat :=
  M.bind (decodeFragment E text fun n => namedExamples E path n.content []) fun m =>
  M.bind (Heap.newNE m) fun i =>
  M.bind (putFragment path (.namedExample i)) fun _ => M.ret i

/-- parse.go:271-304 `parseNamedExample`. -/
def parseNamedExample (E : Env) (path : String) : M St Nat := fun h =>
  match getFragment h path with
  | some (.namedExample i) => (.ok i, h)
  | some _ => (.panic "interface conversion", h)
  | none =>
    match E.file path with
    | none => (.err "open fragment file", h)
    | some text => (M.bind (M.lift (checkFragmentKind path text .namedExample)) fun _ => decodeNamedExample E text path) h

/-- shape.go:771-803 `decodeExamples`. -/
def decodeExamples (E : Env) (a : Addr) (location : String) (v : YNode) : M St Unit :=
  M.bind (Heap.getBase a) fun b =>
  if b.example_.isSome then M.err "example and examples cannot be defined together"
  else if v.kind = .scalar ∧ v.tag = "!include" then
    M.bind (parseNamedExample E (E.joinDir location v.value)) fun i => fun h =>
      Heap.updBase a (fun b => { b with examples := some { link := h.nes[i]? } }) h
  else if v.kind ≠ .mapping then M.err "examples must be map"
  else
    M.bind (namedExamples E location v.content []) fun m =>
    Heap.updBase a fun b => { b with examples := some { map := some m } }

/-- shape.go:805-820 `decodeFacets`: the loop.  A facet declaration is named like a property; the result goes into the map `i`. -/
def decodeFacetDefs (E : Env) (c : Calls) (location : String) (i : Nat) : List YNode → M St Unit
  | [] => M.ret ()
  | [_] => M.panic "index out of range"
  | k :: v :: rest =>
    M.bind (c.makeShape v k.value location) fun a =>
    M.bind (Heap.getBase a) fun b =>
    let p := nameProperty k.value (chompImplicitOptional k.value).1 (chompImplicitOptional k.value).2 a b.required
    M.bind (Heap.setProp i p.name p) fun _ => decodeFacetDefs E c location i rest

/-- shape.go:836-895 `decodeValueNode`: the type node and the facets of one entry. -/
def decodeValueNode (E : Env) (c : Calls) (a : Addr) (location : String) (k v : YNode) : M St (Option YNode × List YNode) :=
  let none_ : Option YNode × List YNode := (none, [])
  if k.value = "type" then M.ret (some v, [])
  else if k.value = "displayName" then
    M.bind (M.lift (orErr "decode display name" (E.decodeStr v))) fun s =>
    M.bind (Heap.updBase a fun b => { b with displayName := s }) fun _ => M.ret none_
  else if k.value = "description" then
    M.bind (M.lift (orErr "decode description" (E.decodeStr v))) fun s =>
    M.bind (Heap.updBase a fun b => { b with description := s }) fun _ => M.ret none_
  else if k.value = "required" then
    M.bind (M.lift (orErr "decode required" (E.decodeBool v))) fun s =>
    M.bind (Heap.updBase a fun b => { b with required := s }) fun _ => M.ret none_
  else if k.value = "facets" then
    M.bind (Heap.newProps []) fun i =>
    M.bind (Heap.updBase a fun b => { b with facetDefs := some i }) fun _ =>
    M.bind (decodeFacetDefs E c location i v.content) fun _ => M.ret none_
  else if k.value = "example" then
    M.bind (Heap.getBase a) fun b =>
    if b.examples.isSome then M.err "example and examples cannot be defined together"
    else
      M.bind (makeExample E v location) fun ex =>
      M.bind (Heap.updBase a fun b => { b with example_ := some ex }) fun _ => M.ret none_
  else if k.value = "examples" then M.bind (decodeExamples E a location v) fun _ => M.ret none_
  else if k.value = "default" then
    M.bind (M.lift (makeRootNode E v location)) fun d =>
    M.bind (Heap.updBase a fun b => { b with default := some d }) fun _ => M.ret none_
  else if k.value = "allowedTargets" then M.ret none_
  else if isCustomDomainExtensionNode k.value then
    M.bind (unmarshalCustomDomainExtension E location k v) fun nd =>
    M.bind (Heap.updBase a fun b => { b with domainProps := OMap.set b.domainProps nd.1 nd.2 }) fun _ => M.ret none_
  else M.ret (none, [k, v])

/-- shape.go:913-925: the loop of `decode`; `t` and `fs` are the type node and the facets so far. -/
def decodeEntries (E : Env) (c : Calls) (a : Addr) (location : String) :
    List YNode → Option YNode → List YNode → M St (Option YNode × List YNode)
  | [], t, fs => M.ret (t, fs)
  | [_], _, _ => M.panic "index out of range"
  | k :: v :: rest, t, fs =>
    M.bind (decodeValueNode E c a location k v) fun r =>
    decodeEntries E c a location rest (match r.1 with | some t' => some t' | none => t) (fs ++ r.2)

/-- shape.go:899-928 `decode`: the type node and the facets (`none` is the nil slice of an inline type). -/
def decode (E : Env) (c : Calls) (a : Addr) (location : String) (v : YNode) : M St (Option YNode × Option (List YNode)) :=
  if v.kind = .scalar ∨ v.kind = .sequence then M.ret (some v, none)
  else if v.kind ≠ .mapping then M.err "value kind must be map"
  else M.bind (decodeEntries E c a location v.content none []) fun r => M.ret (r.1, some r.2)

/-- shape.go:683-704: the parents of a type with several. -/
def makeInherits (c : Calls) (name location : String) : List YNode → M St (List Addr)
  | [] => M.ret []
  | n :: rest =>
    if n.kind ≠ .scalar then M.err "node kind must be scalar"
    else if n.tag = "!include" then M.err "!include is not allowed in multiple inheritance"
    else
      M.bind (c.makeShape n name location) fun a =>
      M.bind (makeInherits c name location rest) fun l => M.ret (a :: l)

/-- shape.go:633-709 `makeShapeType`: the type name, `none` if a JSON shape has been made (and stored in the base; shape.go:538-550
`MakeJSONShape`, 752-755). -/
def makeShapeType (E : Env) (c : Calls) (t : YNode) (facets : Option (List YNode)) (name location : String) (a : Addr) :
    M St (Option String) :=
  match t.kind with
  | .zero => M.err "type must be string or array"
  | .document => M.err "document node is not allowed"
  | .mapping => M.err "mapping node is not allowed"
  | .alias => M.err "alias node is not allowed"
  | .scalar =>
    if t.tag = "!!str" then
      if t.value = "" then M.bind (M.lift (identifyShapeType (facets.getD []))) fun s => M.ret (some s)
      else if t.value.toList.head? = some '{' then
        M.bind (Heap.updBase a fun b => { b with type := "json" }) fun _ =>
        M.bind (M.lift (orErr "unmarshal json" (E.jsonSchema t.value))) fun js =>
        M.bind (setShape a (.json t.value (some js))) fun _ => M.ret none
      else M.ret (some t.value)
    else if t.tag = "!include" then
      M.bind (c.parseDataType (E.joinDir location t.value)) fun d =>
      M.bind (Heap.updBase a fun b => { b with typeLabel := t.value, link := some d }) fun _ => M.ret (some "")
    else if t.tag = "!!null" then M.ret (some "string")
    else M.err "type must be string"
  | .sequence =>
    M.bind (makeInherits c name location t.content) fun l =>
    M.bind (Heap.newSlice l) fun i =>
    M.bind (Heap.updBase a fun b => { b with inherits := some i }) fun _ => M.ret (some "composite")

/-- shape.go:758-768: the end of `makeNewShapeYAML`. -/
def finishShape (E : Env) (c : Calls) (a : Addr) (shapeType : String) (facets : Option (List YNode)) : M St Addr :=
  M.bind (makeConcrete E c a shapeType facets) fun _ =>
  match emptyShape shapeType with
  | .unknown _ => M.bind (Heap.pushUnresolved a) fun _ => M.ret a
  | _ => M.ret a

/-- shape.go:729-769 `makeNewShapeYAML`. -/
def makeNewShapeYAML (E : Env) (c : Calls) (v : YNode) (name location : String) : M St Addr :=
  M.bind (makeBaseShape name location) fun a =>
  M.bind (decode E c a location v) fun r =>
  match r.1 with
  | none => M.bind (M.lift (identifyShapeType (r.2.getD []))) fun t => finishShape E c a t r.2
  | some t =>
    M.bind (makeShapeType E c t r.2 name location a) fun st =>
    match st with
    | none => M.ret a
    | some shapeType => finishShape E c a shapeType r.2

/-! ## Fragments -/

/-- fragment.go:152-162, 348-358: the entries of `uses`. -/
def usesEntries : List YNode → OMap (String × Option Nat) → Out (OMap (String × Option Nat))
  | [], m => .ok m
  | [_], _ => .panic "index out of range"
  | k :: v :: rest, m => usesEntries rest (OMap.set m k.value (v.value, none))

/-- fragment.go:175-187 (`put := Heap.putType`), 199-212 (`put := Heap.putAnnotationType`): the entries of `types`. -/
def typeEntries (c : Calls) (put : String → String → Addr → M St Unit) (location : String) :
    List YNode → OMap Addr → M St (OMap Addr)
  | [], m => M.ret m
  | [_], _ => M.panic "index out of range"
  | k :: v :: rest, m =>
    M.bind (c.makeShape v k.value location) fun a =>
    M.bind (put k.value location a) fun _ => typeEntries c put location rest (OMap.set m k.value a)

/-- fragment.go:143-150, 166-173, 190-197: null leaves the map as it is, anything else but a mapping is an error. -/
def sectionOf {α : Type} (v : YNode) (old : α) (read : List YNode → M St α) : M St α :=
  if v.tag = "!!null" then M.ret old
  else if v.kind ≠ .mapping then M.err "must be map"
  else read v.content

/-- fragment.go:221-252: one entry of a library. -/
def libraryEntry (E : Env) (c : Calls) (k v : YNode) (l : Lib) : M St Lib :=
  if k.value = "uses" then
    M.bind (sectionOf v l.uses fun n => M.lift (usesEntries n [])) fun m => M.ret { l with uses := m }
  else if k.value = "types" then
    M.bind (sectionOf v l.types fun n => typeEntries c Heap.putType l.location n []) fun m => M.ret { l with types := m }
  else if k.value = "annotationTypes" then
    M.bind (sectionOf v l.annotationTypes fun n => typeEntries c Heap.putAnnotationType l.location n []) fun m =>
      M.ret { l with annotationTypes := m }
  else if k.value = "usage" then
    M.bind (M.lift (orErr "parse usage" (E.decodeStr v))) fun _ => M.ret l
  else if isCustomDomainExtensionNode k.value then
    M.bind (unmarshalCustomDomainExtension E l.location k v) fun _ => M.ret l
  else M.ret l

/-- fragment.go:216-255 `Library.UnmarshalYAML`: the loop. -/
def libraryEntries (E : Env) (c : Calls) : List YNode → Lib → M St Lib
  | [], l => M.ret l
  | [_], _ => M.panic "index out of range"
  | k :: v :: rest, l => M.bind (libraryEntry E c k v l) fun l' => libraryEntries E c rest l'

/-- parse.go:195-211: load the libraries a library uses; errors are collected.  The result says whether there was none. -/
def linkUses (E : Env) (c : Calls) (i : Nat) (location : String) : List (String × String × Option Nat) → M St Bool
  | [] => M.ret true
  | (key, value, _) :: rest =>
    M.bind (M.attempt (c.parseLibrary (E.joinDir location value))) fun r =>
    match r with
    | .ok j =>
      M.bind (Heap.linkLib i key value (some j)) fun _ => linkUses E c i location rest
    | .error _ =>
      M.bind (Heap.linkLib i key value none) fun _ =>
      M.bind (linkUses E c i location rest) fun _ => M.ret false

/-- parse.go:181-215 `decodeLibrary`. -/
def decodeLibrary (E : Env) (c : Calls) (text path : String) : M St Nat :=
  M.bind (decodeFragment E text fun n => libraryEntries E c n.content { location := path }) fun l =>
  M.bind (Heap.newLib l) fun i =>
  M.bind (putFragment path (.library i)) fun _ =>
  M.bind (linkUses E c i path l.uses) fun good =>
  if good then M.ret i else M.err "parse uses library"

/-- parse.go:217-255 `parseLibrary`. -/
def parseLibrary (E : Env) (c : Calls) (path : String) : M St Nat := fun h =>
  match getFragment h path with
  | some (.library i) => (.ok i, h)
  | some _ => (.panic "interface conversion", h)
  | none =>
    match E.file path with
    | none => (.err "open fragment file", h)
    | some text => (M.bind (M.lift (checkFragmentKind path text .library)) fun _ => decodeLibrary E c text path) h

/-- fragment.go:329-369 `DataType.UnmarshalYAML`: the entries; `uses` is separated from the entries of the type. -/
def dataTypeEntries : List YNode → OMap (String × Option Nat) → List YNode → Out (OMap (String × Option Nat) × List YNode)
  | [], uses, fs => .ok (uses, fs)
  | [_], _, _ => .panic "index out of range"
  | k :: v :: rest, uses, fs =>
    if k.value = "usage" then dataTypeEntries rest uses fs
    else if k.value = "uses" then
      if v.tag = "!!null" then dataTypeEntries rest uses fs
      else (usesEntries v.content []).bind fun m => dataTypeEntries rest m fs
    else dataTypeEntries rest uses (fs ++ [k, v])

/-- fragment.go:329-369 `DataType.UnmarshalYAML`. -/
def unmarshalDataType (E : Env) (c : Calls) (path : String) (n : YNode) : M St DT :=
  M.bind (M.lift (dataTypeEntries n.content [] [])) fun r =>
  M.bind (c.makeShape (.mk .mapping "" "" r.2) (E.baseName path) path) fun a =>
  M.ret { location := path, shape := some a, uses := r.1 }

/-- fragment.go:380-402 `MakeJSONDataType`. -/
def jsonDataTypeNode (text : String) : YNode := .mk .mapping "" "" [YNode.str "type", YNode.str text]

/-- parse.go:88-97: load the libraries a data type uses; the first error ends it. -/
def linkDataTypeUses (E : Env) (c : Calls) (i : Nat) (location : String) : List (String × String × Option Nat) → M St Unit
  | [] => M.ret ()
  | (key, value, _) :: rest =>
    M.bind (c.parseLibrary (E.joinDir location value)) fun j =>
    M.bind (Heap.linkDT i key value (some j)) fun _ => linkDataTypeUses E c i location rest

/-- parse.go:61-100 `decodeDataType`. -/
def decodeDataType (E : Env) (c : Calls) (text path : String) : M St Nat :=
  if ".json".toList <:+ path.toList then
    M.bind (unmarshalDataType E c path (jsonDataTypeNode text)) fun d =>
    M.bind (Heap.newDT d) fun i =>
    M.bind (putFragment path (.dataType i)) fun _ => M.ret i
  else
    M.bind (decodeFragment E text (unmarshalDataType E c path)) fun d =>
    M.bind (Heap.newDT d) fun i =>
    M.bind (putFragment path (.dataType i)) fun _ =>
    M.bind (linkDataTypeUses E c i path d.uses) fun _ => M.ret i

/-- parse.go:123-162 `parseDataType`. -/
def parseDataType (E : Env) (c : Calls) (path : String) : M St Nat := fun h =>
  match getFragment h path with
  | some (.dataType i) => (.ok i, h)
  | some _ => (.panic "interface conversion", h)
  | none =>
    match E.file path with
    | none => (.err "open fragment file", h)
    | some text => (M.bind (M.lift (checkFragmentKind path text .dataType)) fun _ => decodeDataType E c text path) h

/-- The three functions, cut off after `n` nested calls. -/
def calls (E : Env) : Nat → Calls
  | 0 => { makeShape := fun _ _ _ => M.diverge, parseDataType := fun _ => M.diverge, parseLibrary := fun _ => M.diverge }
  | n + 1 =>
    { makeShape := makeNewShapeYAML E (calls E n)
      parseDataType := parseDataType E (calls E n)
      parseLibrary := parseLibrary E (calls E n) }

end GoRaml
