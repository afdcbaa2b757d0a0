import Verif.Spec.Load
import Mathlib.Data.List.Forall2

/-!
# What a document says

What a parsed model must contain, read off the YAML documents: the facets, properties, annotations and examples of every type, and the types of every
fragment.  Nothing here follows the order or the loops of the decoder; the last of several entries with one key decides.
-/

namespace GoRaml.Spec

open GoRaml

/-! ## Mappings -/

/-- The entries of a mapping: the text of the key, and the value. -/
def entriesOf : List YNode → List (String × YNode)
  | k :: v :: rest => (k.value, v) :: entriesOf rest
  | _ => []

/-- The value of the last entry with the key. -/
def lastOf (k : String) : List (String × YNode) → Option YNode
  | [] => none
  | e :: es =>
    match lastOf k es with
    | some v => some v
    | none => if e.1 = k then some e.2 else none

/-- `x` is what `read` makes of the last entry with the key `k`, and `d` if there is none. -/
def Reads {α : Type} (k : String) (es : List (String × YNode)) (d : α) (read : YNode → α → Prop) (x : α) : Prop :=
  match lastOf k es with
  | none => x = d
  | some v => read v x

/-- The ordered map after storing these entries in order. -/
def filled {α : Type} (l : List (String × α)) : OMap α := l.foldl (fun m e => OMap.set m e.1 e.2) []

/-- The ordered map holds what `P` makes of the entries, stored in order. -/
def Lists {α : Type} (P : String × YNode → String × α → Prop) (es : List (String × YNode)) (m : OMap α) : Prop :=
  ∃ l, List.Forall₂ P es l ∧ m = filled l

/-! ## Values, examples and annotations -/

/-- The value of a node in the file `loc`; see C53 for what it is. -/
def ValueOf (E : Env) (loc : String) (v : YNode) (d : GoVal) : Prop := makeRootNode E v loc = .ok d

/-- The values of a sequence. -/
def ValuesOf (E : Env) (loc : String) (v : YNode) (x : Option (List GoVal)) : Prop :=
  v.kind = .sequence ∧ ∃ l, x = some l ∧ List.Forall₂ (ValueOf E loc) v.content l

/-- An example is a value, or a mapping with the value under `value` and whether it is to be checked under `strict`. -/
def ExampleReads (E : Env) (loc : String) (v : YNode) (ex : Example) : Prop :=
  match (if v.kind = .mapping then (entriesOf v.content).find? (·.1 = "value") else none) with
  | none => ValueOf E loc v ex.data ∧ ex.strict = true
  | some e => ValueOf E loc e.2 ex.data ∧
      ex.strict = (((entriesOf v.content).filterMap fun e => if e.1 = "strict" then (E.decodeBool e.2).join else none).getLast?).getD true

/-- Named examples. -/
def ExamplesOf (E : Env) (loc : String) (content : List YNode) (m : OMap Example) : Prop :=
  Lists (fun e x => x.1 = e.1 ∧ ExampleReads E loc e.2 x.2) (entriesOf content) m

/-- The examples of a NamedExample file. -/
def FileExamples (E : Env) (path : String) (m : OMap Example) : Prop := ∃ d, Document E path d ∧ ExamplesOf E path (docRoot d).content m

/-- Examples are given inline or as an included file. -/
def ExamplesRead (E : Env) (loc : String) (v : YNode) (x : Examples) : Prop :=
  if v.kind = .scalar ∧ v.tag = "!include" then x.map = none ∧ ∃ m, x.link = some m ∧ FileExamples E (E.joinDir loc v.value) m
  else x.link = none ∧ ∃ m, x.map = some m ∧ ExamplesOf E loc v.content m

/-- A key in parentheses is an annotation. -/
def annotationKey (k : String) : Bool := decide (k.toList.head? = some '(' ∧ k.toList.getLast? = some ')')

/-- An annotation: its name, and the extension that holds its value. -/
def AnnotationReads (E : Env) (s : St) (loc : String) (e : String × YNode) (x : String × Nat) : Prop :=
  e.1 = "(" ++ x.1 ++ ")" ∧ ∃ de, s.domainExts[x.2]? = some de ∧ de.name = x.1 ∧ de.location = loc ∧ ValueOf E loc e.2 de.value

/-! ## Types

`R v name a` says that the type at `a` is what the node `v` says, under the name `name`. -/

/-- An entry of `properties` or `facets`.  The type's own `required` decides; without it, a `?` at the end of the key makes it optional and
is not part of the name. -/
def PropertyReads (s : St) (R : YNode → String → Addr → Prop) (e : String × YNode) (x : String × Property) : Prop :=
  x.1 = x.2.name ∧ R e.2 e.1 x.2.base ∧ ∃ b, s.base x.2.base = some b ∧
    match b.required with
    | some r => x.2.name = e.1 ∧ x.2.required = r
    | none => (x.2.name ++ "?" = e.1 ∧ x.2.required = false) ∨ ((∀ k, k ++ "?" ≠ e.1) ∧ x.2.name = e.1 ∧ x.2.required = true)

/-- A key between slashes is a pattern. -/
def patternKey (k : String) : Bool := decide (2 ≤ k.toList.length ∧ k.toList.head? = some '/' ∧ k.toList.getLast? = some '/')

/-- A pattern property. -/
def PatternReads (R : YNode → String → Addr → Prop) (e : String × YNode) (x : String × PatternProperty) : Prop :=
  x.1 = e.1 ∧ e.1 = "/" ++ x.2.pattern ++ "/" ∧ R e.2 e.1 x.2.base

/-- The properties of an object type. -/
structure PropertiesRead (s : St) (R : YNode → String → Addr → Prop) (es : List (String × YNode)) (f : ObjectF) : Prop where
  props : Lists (PropertyReads s R) (es.filter fun e => !patternKey e.1) (s.props f.properties)
  patProps : Lists (PatternReads R) (es.filter fun e => patternKey e.1) (s.patProps f.patternProperties)

/-- All entries of all mappings under the key. -/
def allUnder (k : String) (es : List (String × YNode)) : List (String × YNode) := (es.filter (·.1 = k)).flatMap fun e => entriesOf e.2.content

/-- The shape has the facets that the entries give.  `own` says whether `items` is looked at. -/
def FacetsRead (E : Env) (s : St) (loc : String) (R : YNode → String → Addr → Prop) (own : Prop) (es : List (String × YNode)) : Shape → Prop
  | .string f =>
    Reads "minLength" es none (fun v x => E.decodeUint v = some x) f.minLength ∧
    Reads "maxLength" es none (fun v x => E.decodeUint v = some x) f.maxLength ∧
    Reads "pattern" es none (fun v x => x = some v.value) f.pattern ∧
    Reads "enum" es none (ValuesOf E loc) f.enum
  | .integer f =>
    Reads "minimum" es none (fun v x => ∃ z, E.bigInt v.value = some z ∧ x = some z) f.minimum ∧
    Reads "maximum" es none (fun v x => ∃ z, E.bigInt v.value = some z ∧ x = some z) f.maximum ∧
    Reads "multipleOf" es none (fun v x => E.decodeFloat v = some x) f.multipleOf ∧
    Reads "format" es none (fun v x => E.decodeStr v = some x) f.format ∧
    Reads "enum" es none (ValuesOf E loc) f.enum
  | .number f =>
    Reads "minimum" es none (fun v x => E.decodeFloat v = some x) f.minimum ∧
    Reads "maximum" es none (fun v x => E.decodeFloat v = some x) f.maximum ∧
    Reads "multipleOf" es none (fun v x => E.decodeFloat v = some x) f.multipleOf ∧
    Reads "format" es none (fun v x => E.decodeStr v = some x) f.format ∧
    Reads "enum" es none (ValuesOf E loc) f.enum
  | .file f =>
    Reads "minLength" es none (fun v x => E.decodeUint v = some x) f.minLength ∧
    Reads "maxLength" es none (fun v x => E.decodeUint v = some x) f.maxLength ∧
    Reads "fileTypes" es none (ValuesOf E loc) f.fileTypes
  | .boolean enum => Reads "enum" es none (ValuesOf E loc) enum
  | .datetime format => Reads "format" es none (fun v x => E.decodeStr v = some x) format
  | .array f =>
    Reads "minItems" es none (fun v x => E.decodeUint v = some x) f.minItems ∧
    Reads "maxItems" es none (fun v x => E.decodeUint v = some x) f.maxItems ∧
    Reads "uniqueItems" es none (fun v x => E.decodeBool v = some x) f.uniqueItems ∧
    (own → Reads "items" es none (fun v x => ∃ a, x = some a ∧ R v "items" a) f.items)
  | .object f =>
    Reads "additionalProperties" es none (fun v x => E.decodeBool v = some x) f.additionalProperties ∧
    Reads "discriminator" es none (fun v x => E.decodeStr v = some x) f.discriminator ∧
    Reads "discriminatorValue" es .nil (fun v x => E.decodeAny v = some x) f.discriminatorValue ∧
    Reads "minProperties" es none (fun v x => E.decodeUint v = some x) f.minProperties ∧
    Reads "maxProperties" es none (fun v x => E.decodeUint v = some x) f.maxProperties ∧
    PropertiesRead s R (allUnder "properties" es) f
  | _ => True

/-- The facets a type defines; all other facets are custom ones. -/
def facetNames (t : String) : List String :=
  if t = "object" then ["additionalProperties", "discriminator", "discriminatorValue", "minProperties", "maxProperties", "properties"]
  else if t = "array" then ["minItems", "maxItems", "items", "uniqueItems"]
  else if t = "string" then ["minLength", "maxLength", "pattern", "enum"]
  else if t = "integer" then ["minimum", "maximum", "multipleOf", "format", "enum"]
  else if t = "number" then ["minimum", "maximum", "multipleOf", "format", "enum"]
  else if t = "datetime" then ["format"]
  else if t = "file" then ["minLength", "maxLength", "fileTypes"]
  else if t = "boolean" then ["enum"]
  else []

/-- The custom facets.  Unions and JSON schemas have none: their facets are not looked at. -/
def CustomRead (E : Env) (loc t : String) (es : List (String × YNode)) (m : OMap GoVal) : Prop :=
  if t = "union" ∨ t = "json" then m = []
  else Lists (fun e x => x.1 = e.1 ∧ ValueOf E loc e.2 x.2) (es.filter fun e => e.1 ∉ facetNames t) m

/-- The base is of the type `t` and has the facets. -/
structure Has (E : Env) (s : St) (loc : String) (R : YNode → String → Addr → Prop) (own : Prop) (t : String) (facets : Option (List YNode))
    (b : Base) : Prop where
  type : b.type = t
  typed : Typed b
  reads : ∀ sh, b.shape = some sh → FacetsRead E s loc R own (entriesOf (facets.getD [])) sh
  custom : CustomRead E loc t (entriesOf (facets.getD [])) (s.facetMap b.facets)

/-- The base is given by a type expression together with facets.  A reference has the type of the type it names.  An array has the facets,
but its items are those of the expression.  A keyword (one in parentheses, or surrounded by blanks) has no facets.
How the expression itself is laid out is the subject of C33. -/
def TreeHas (E : Env) (s : St) (loc : String) (R : YNode → String → Addr → Prop) (facets : Option (List YNode)) (b : Base) : Rdt → Prop
  | .prim p => Has E s loc R True p.text none b
  | .ref x y => ∃ ref rb, getReferenced s Lib.types (refText x y) loc = .ok ref ∧ s.base ref = some rb ∧ Typed rb ∧ Has E s loc R True rb.type facets b
  | .group e => TreeHas E s loc R facets b e
  | .optional _ => Has E s loc R True "union" facets b
  | .union _ _ => Has E s loc R True "union" facets b
  | .array _ => Has E s loc R False "array" facets b

/-- Where the type of a declaration comes from. -/
inductive Source where
  | named (t : String)
  | json (text : String)
  | expr (text : String)
  | included (path label : String)
  | parents (nodes : List YNode)

/-- The names of the types. -/
def keywords : List String :=
  ["any", "nil", "object", "array", "string", "integer", "number", "datetime", "datetime-only", "date-only", "time-only", "file", "boolean", "union", "json"]

/-- Where the type comes from, by the node under `type` (`none` if there is none) and the facets.  What facets alone say is the subject of C31. -/
inductive IsSource (E : Env) (loc : String) (facets : List YNode) : Option YNode → Source → Prop where
  | inferred {t : String} : identifyShapeType facets = .ok t → IsSource E loc facets none (.named t)
  | empty {n : YNode} {t : String} : n.kind = .scalar → n.tag = "!!str" → n.value = "" → identifyShapeType facets = .ok t →
      IsSource E loc facets (some n) (.named t)
  | null {n : YNode} : n.kind = .scalar → n.tag = "!!null" → IsSource E loc facets (some n) (.named "string")
  | keyword {n : YNode} : n.kind = .scalar → n.tag = "!!str" → n.value ∈ keywords → IsSource E loc facets (some n) (.named n.value)
  | json {n : YNode} : n.kind = .scalar → n.tag = "!!str" → n.value.toList.head? = some '{' → IsSource E loc facets (some n) (.json n.value)
  | expr {n : YNode} : n.kind = .scalar → n.tag = "!!str" → n.value ≠ "" → n.value.toList.head? ≠ some '{' → n.value ∉ keywords →
      IsSource E loc facets (some n) (.expr n.value)
  | included {n : YNode} : n.kind = .scalar → n.tag = "!include" → IsSource E loc facets (some n) (.included (E.joinDir loc n.value) n.value)
  | parents {n : YNode} : n.kind = .sequence → IsSource E loc facets (some n) (.parents n.content)

/-- The base comes from the source and has the facets. -/
def SourceReads (E : Env) (s : St) (loc : String) (R : YNode → String → Addr → Prop) (name : String) (facets : Option (List YNode)) (b : Base) :
    Source → Prop
  | .named t => Has E s loc R True t facets b
  | .json text => b.type = "json" ∧ s.facetMap b.facets = [] ∧ ∃ js, E.jsonSchema text = some js ∧ b.shape = some (.json text (some js))
  | .expr text => ∃ tree, parseTypeExpression text = some tree ∧ TreeHas E s loc R facets b tree
  | .included path label => b.typeLabel = label ∧ ∃ i d l lb, b.link = some i ∧ s.dts[i]? = some d ∧ d.location = path ∧ d.shape = some l ∧
      s.base l = some lb ∧ Typed lb ∧ Has E s loc R True lb.type facets b
  | .parents nodes => List.Forall₂ (fun n p => R n name p) nodes (s.slice b.inherits) ∧
      ∃ p pb, (s.slice b.inherits).head? = some p ∧ s.base p = some pb ∧ Typed pb ∧ Has E s loc R True pb.type facets b

/-- The keys of a type declaration that are not facets. -/
def isHeadKey (k : String) : Bool :=
  k ∈ ["type", "displayName", "description", "required", "facets", "example", "examples", "default", "allowedTargets"] || annotationKey k

/-- The entries of a type declaration that are facets. -/
def facetNodes : List YNode → List YNode
  | k :: v :: rest => if isHeadKey k.value then facetNodes rest else k :: v :: facetNodes rest
  | _ => []

/-- The parts of a type that do not depend on its kind. -/
structure Heading (E : Env) (s : St) (loc : String) (R : YNode → String → Addr → Prop) (es : List (String × YNode)) (b : Base) : Prop where
  displayName : Reads "displayName" es none (fun v x => E.decodeStr v = some x) b.displayName
  description : Reads "description" es none (fun v x => E.decodeStr v = some x) b.description
  required : Reads "required" es none (fun v x => E.decodeBool v = some x) b.required
  default : Reads "default" es none (fun v x => ∃ d, x = some d ∧ ValueOf E loc v d) b.default
  example_ : Reads "example" es none (fun v x => ∃ ex, x = some ex ∧ ExampleReads E loc v ex) b.example_
  examples : Reads "examples" es none (fun v x => ∃ exs, x = some exs ∧ ExamplesRead E loc v exs) b.examples
  facetDefs : Reads "facets" es [] (fun v m => Lists (PropertyReads s R) (entriesOf v.content) m) (s.props b.facetDefs)
  annotations : Lists (AnnotationReads E s loc) (es.filter fun e => annotationKey e.1) b.domainProps

/-- The entries of a declaration, the node that gives its type, and its facets.  A declaration that is not a mapping is just a type, without
facets. -/
def Parts (v : YNode) (es : List (String × YNode)) (t : Option YNode) (facets : Option (List YNode)) : Prop :=
  if v.kind = .mapping then es = entriesOf v.content ∧ t = lastOf "type" es ∧ facets = some (facetNodes v.content)
  else es = [] ∧ t = some v ∧ facets = none

/-- The type at `a` is what the node `v` says under the name `name`, its parts being related by `R`. -/
def TypeReads (E : Env) (s : St) (loc : String) (R : YNode → String → Addr → Prop) (v : YNode) (name : String) (a : Addr) : Prop :=
  ∃ b es t facets src, s.base a = some b ∧ b.name = name ∧ b.location = loc ∧ Parts v es t facets ∧ Heading E s loc R es b ∧
    IsSource E loc (facets.getD []) t src ∧ SourceReads E s loc R name facets b src

/-- The type at `a` is what the node `v`, in the file `loc`, says under the name `name`: the least relation with this property. -/
def Describes (E : Env) (s : St) (loc : String) (v : YNode) (name : String) (a : Addr) : Prop :=
  ∀ R : YNode → String → Addr → Prop, (∀ v name a, TypeReads E s loc R v name a → R v name a) → R v name a

/-! ## Fragments -/

/-- The declarations in a section of a library. -/
def SectionReads (R : YNode → String → Addr → Prop) (key : String) (es : List (String × YNode)) (m : OMap Addr) : Prop :=
  Reads key (es.filter fun e => e.2.tag ≠ "!!null") [] (fun v m => Lists (fun e x => x.1 = e.1 ∧ R e.2 e.1 x.2) (entriesOf v.content) m) m

/-- The libraries a fragment uses: their names and paths. -/
def UsesRead (es : List (String × YNode)) (m : OMap (String × Option Nat)) : Prop :=
  Reads "uses" (es.filter fun e => e.2.tag ≠ "!!null") [] (fun v m => m = filled ((entriesOf v.content).map fun e => (e.1, e.2.value)))
    (m.map fun x => (x.1, x.2.1))

/-- The library is what its file says; `R` relates declarations and types. -/
def LibraryReads (E : Env) (R : String → YNode → String → Addr → Prop) (l : Lib) : Prop :=
  ∃ d, Document E l.location d ∧ SectionReads (R l.location) "types" (entriesOf (docRoot d).content) l.types ∧
    SectionReads (R l.location) "annotationTypes" (entriesOf (docRoot d).content) l.annotationTypes ∧ UsesRead (entriesOf (docRoot d).content) l.uses

/-- The declaration of a data type: its file without `usage` and `uses`. -/
def declarationNodes : List YNode → List YNode
  | k :: v :: rest => if k.value = "usage" ∨ k.value = "uses" then declarationNodes rest else k :: v :: declarationNodes rest
  | _ => []

/-- The data type is what its file says: a JSON schema if the file is a JSON file, otherwise a declaration. -/
def DataTypeReads (E : Env) (R : String → YNode → String → Addr → Prop) (d : DT) : Prop :=
  ∃ a, d.shape = some a ∧
    if ".json".toList <:+ d.location.toList then
      d.uses = [] ∧ ∃ text, E.file d.location = some text ∧
        R d.location (.mk .mapping "" "" [YNode.str "type", YNode.str text]) (E.baseName d.location) a
    else ∃ doc, Document E d.location doc ∧ UsesRead (entriesOf (docRoot doc).content) d.uses ∧
      R d.location (.mk .mapping "" "" (declarationNodes (docRoot doc).content)) (E.baseName d.location) a

end GoRaml.Spec
