import Verif.Model.Names

/-!
# YAML nodes to values, examples, annotations (node.go, example.go, extension.go)
-/

namespace GoRaml

/-- What the parser gets from outside: the file system, `filepath`, and the decoders of encoding/json and gopkg.in/yaml.v3.
`none` is an error.  File contents are text. -/
structure Env extends Ext where
  /-- `os.OpenFile` and `io.ReadAll` of a path (relative paths are taken from the working directory). -/
  file : String → Option String
  /-- `filepath.Join(filepath.Dir(location), value)`. -/
  joinDir : String → String → String
  /-- `filepath.Base`. -/
  baseName : String → String
  /-- `filepath.Ext`. -/
  extOf : String → String
  /-- `yaml.NewDecoder(r).Decode(&node)`: the first document of a text. -/
  yamlParse : String → Option YNode
  /-- `json.NewDecoder(r).Decode(&data)` into `any`. -/
  jsonFirst : String → Option GoVal
  /-- `json.Unmarshal` into a `*JSONSchema`. -/
  jsonSchema : String → Option JS
  /-- `node.Decode` of a scalar node into `any`, by tag and value. -/
  decodeAny : YNode → Option GoVal
  /-- `node.Decode` into a `*string` or `string`; `some none` is null. -/
  decodeStr : YNode → Option (Option String)
  /-- `node.Decode` into a `*bool` or `bool`. -/
  decodeBool : YNode → Option (Option Bool)
  /-- `node.Decode` into a `*uint64`. -/
  decodeUint : YNode → Option (Option Nat)
  /-- `node.Decode` into a `*float64`. -/
  decodeFloat : YNode → Option (Option F64)
  /-- `big.NewInt(0).SetString(s, 10)`. -/
  bigInt : String → Option Int

/-- `if err := f(); err != nil { return err }` for an external function. -/
def orErr {α : Type} (msg : String) : Option α → Out α
  | some a => .ok a
  | none => .err msg

/-- node.go:126-145: `scalarNodeToDataNode`; `inc` handles `!include`. -/
def scalarNodeToDataNode (E : Env) (inc : String → Out GoVal) (node : YNode) : Out GoVal :=
  if node.tag = "!!str" then .ok (.str node.value)
  else if node.tag = "!!timestamp" then .ok (.str node.value)
  else if node.tag = "!include" then inc node.value
  else orErr "decode scalar node" (E.decodeAny node)

mutual

/-- node.go:182-221 `yamlNodeToDataNode`.  `inc` is what an `!include` of a path does. -/
def yamlNodeToDataNode (E : Env) (inc : String → Out GoVal) : YNode → Out GoVal
  | .mk kind tag value content =>
    match kind with
    | .zero => .err "unexpected kind"
    | .alias => .err "alias nodes are not supported"
    | .document => yamlFirstToDataNode E inc content
    | .scalar => scalarNodeToDataNode E inc (.mk .scalar tag value content)
    | .mapping =>
      if content.length % 2 ≠ 0 then .err "mapping node should have even number of children"
      else yamlPairsToDataNode E inc content []
    | .sequence => yamlItemsToDataNode E inc content []

/-- node.go:189-190: `node.Content[0]`. -/
def yamlFirstToDataNode (E : Env) (inc : String → Out GoVal) : List YNode → Out GoVal
  | [] => .panic "index out of range"
  | n :: _ => yamlNodeToDataNode E inc n

/-- node.go:199-208: the loop over a mapping; `properties` is a Go map. -/
def yamlPairsToDataNode (E : Env) (inc : String → Out GoVal) : List YNode → List (String × GoVal) → Out GoVal
  | k :: v :: rest, properties =>
    (yamlNodeToDataNode E inc v).bind fun data => yamlPairsToDataNode E inc rest (OMap.set properties k.value data)
  | _, properties => .ok (.map properties)

/-- node.go:211-219: the loop over a sequence; `items` are the items so far. -/
def yamlItemsToDataNode (E : Env) (inc : String → Out GoVal) : List YNode → List GoVal → Out GoVal
  | [], items => .ok (.arr items)
  | n :: rest, items =>
    (yamlNodeToDataNode E inc n).bind fun data => yamlItemsToDataNode E inc rest (items ++ [data])

end

/-- node.go:138-141: an include inside included content (`isInclude`). -/
def nestedInclude (_ : String) : Out GoVal := .err "nested includes are not allowed"

/-- node.go:142-178: an include inside a value (`isInclude` false). -/
def includedData (E : Env) (location value : String) : Out GoVal :=
  (orErr "include: read raw file" (E.file (E.joinDir location value))).bind fun text =>
  if E.extOf value = ".yaml" ∨ E.extOf value = ".yml" then
    (orErr "include: yaml decode" (E.yamlParse text)).bind fun data => yamlNodeToDataNode E nestedInclude data
  else .ok (.str text)

/-- node.go:42-90 `makeIncludedNode`: the value of the node. -/
def makeIncludedNode (E : Env) (location value : String) : Out GoVal :=
  let path := E.joinDir location value
  (orErr "include: read raw file" (E.file path)).bind fun text =>
  if E.extOf value = ".json" then orErr "include: json decode" (E.jsonFirst text)
  else if E.extOf value = ".yaml" ∨ E.extOf value = ".yml" then
    (orErr "include: yaml decode" (E.yamlParse text)).bind fun data => yamlNodeToDataNode E (includedData E path) data
  else .ok (.str text)

/-- node.go:92-111 `makeRootNode` (and 113-124 `makeYamlNode`): the value of the node. -/
def makeRootNode (E : Env) (node : YNode) (location : String) : Out GoVal :=
  if node.tag = "!include" then makeIncludedNode E location node.value
  else if node.value.toList.head? = some '{' then orErr "json unmarshal" (E.jsonDecode node.value)
  else yamlNodeToDataNode E (includedData E location) node

/-- extension.go:20-42 `unmarshalCustomDomainExtension`: the name and the index of the new extension. -/
def unmarshalCustomDomainExtension (E : Env) (location : String) (key value : YNode) : M St (String × Nat) :=
  M.bind (M.lift (annotationName key.value)) fun name =>
  M.bind (M.lift (makeRootNode E value location)) fun v => fun h =>
    (.ok (name, h.domainExts.length), { h with domainExts := h.domainExts ++ [{ name, value := v, location }] })

/-- example.go:19-43 `Example.decode`: one entry of a detailed example; the display name, description and annotations of an example are
checked but not kept. -/
def exampleDecode (E : Env) (location : String) (key value : YNode) (ex : Example) : M St Example :=
  if key.value = "strict" then
    M.bind (M.lift (orErr "decode strict" (E.decodeBool value))) fun b =>
      M.ret (match b with | some b => { ex with strict := b } | none => ex)
  else if key.value = "displayName" then M.bind (M.lift (orErr "decode displayName" (E.decodeStr value))) fun _ => M.ret ex
  else if key.value = "description" then M.bind (M.lift (orErr "decode description" (E.decodeStr value))) fun _ => M.ret ex
  else if isCustomDomainExtensionNode key.value then
    M.bind (unmarshalCustomDomainExtension E location key value) fun _ => M.ret ex
  else M.ret ex

/-- example.go:64-70: the loop over the entries. -/
def exampleEntries (E : Env) (location : String) : List YNode → Example → M St Example
  | [], ex => M.ret ex
  | [_], _ => M.panic "index out of range"
  | k :: v :: rest, ex => M.bind (exampleDecode E location k v ex) fun ex' => exampleEntries E location rest ex'

/-- example.go:47-55: the first `value` key. -/
def findValueKey : List YNode → Out (Option YNode)
  | [] => .ok none
  | [_] => .panic "index out of range"
  | k :: v :: rest => if k.value = "value" then .ok (some v) else findValueKey rest

/-- example.go:78-106 `makeExample`, with 45-76 `fill`. -/
def makeExample (E : Env) (value : YNode) (location : String) : M St Example :=
  if value.kind = .mapping then
    M.bind (M.lift (findValueKey value.content)) fun vk =>
    match vk with
    | some valueKey =>
      M.bind (exampleEntries E location value.content { data := .nil }) fun ex =>
      M.bind (M.lift (makeRootNode E valueKey location)) fun d => M.ret { ex with data := d }
    | none => M.bind (M.lift (makeRootNode E value location)) fun d => M.ret { data := d }
  else M.bind (M.lift (makeRootNode E value location)) fun d => M.ret { data := d }

end GoRaml
