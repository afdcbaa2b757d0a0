import Verif.Model.Monad

/-!
# JSON Schema conversion (jsonschemaconv.go, schema.go)

The state of the converter is its map of definitions; a nil schema is `none`.  `visit w h n a` is `c.Visit` on the shape of the base at `a`,
cut off after `n` nested calls; the heap is only read.  An ordered map built by `Set` calls with the distinct keys of another map is
written as the list of its entries.
-/

namespace GoRaml

/-- `c.opts.wrap` (jsonschemaconv.go:14-31): not set; a wrapper that only embeds the core; `JSONSchemaWrapper` (schema.go:474-505). -/
inductive Wrap where
  | unset
  | plain
  | raml
  deriving DecidableEq, Repr

/-- `c.definitions`. -/
abbrev Defs := OMap (Option JS)

/-- jsonschemaconv.go:489-508: the keywords taken from the base shape. -/
def baseCore (b : Base) : JSCore where
  title := b.displayName.getD ""
  description := b.description.getD ""
  default := b.default.getD .nil
  examples := match b.example_ with
    | some ex => [ex.data]
    | none => ((b.examples.bind (·.map)).getD []).map fun e => e.2.data

/-- One entry of a map of schemas: visit a type under a key. -/
def visitEntry (rec : Addr → M Defs (Option JS)) (ka : String × Addr) : M Defs (String × Option JS) :=
  M.bind (rec ka.2) fun s => M.ret (ka.1, s)

/-- schema.go:475-505 `JSONSchemaWrapper` for a base shape.  (Annotations are kept by value; a nil extension would panic.) -/
def ramlNode (rec : Addr → M Defs (Option JS)) (h : St) (core : JSCore) (b : Base) : M Defs JS :=
  M.bind (M.collect (visitEntry rec) ((h.props b.facetDefs).map fun e => (e.1, e.2.base))) fun fds =>
  M.ret
    { core
      annotations := if b.domainProps = [] then none else
        some (b.domainProps.map fun e => (e.1, ((h.domainExts[e.2]?).map (·.value)).getD .nil))
      facetDefinitions := if fds = [] then none else some fds
      facetData := if h.facetMap b.facets = [] then none else some (h.facetMap b.facets) }

/-- jsonschemaconv.go:509-512, 481-486, 474-477: without a wrapper the assertion `any(core).(T)` fails (`core` is a
`*JSONSchemaGeneric[T]`, never a `T`) and panics. -/
def wrapNode (w : Wrap) (rec : Addr → M Defs (Option JS)) (h : St) (core : JSCore) (b : Option Base) : M Defs JS :=
  match w, b with
  | .unset, _ => M.panic "interface conversion"
  | .raml, some b => ramlNode rec h core b
  | _, _ => M.ret { core }

/-- jsonschemaconv.go:490-514 `makeSchemaFromBaseShape`. -/
def makeSchema (w : Wrap) (rec : Addr → M Defs (Option JS)) (h : St) (b : Base) : M Defs JS := wrapNode w rec h (baseCore b) (some b)

/-- jsonschemaconv.go:145-152: the key of a pattern property without its delimiters (`k[1:len(k)-1]`; first and last character are one-byte
slashes). -/
def trimSlashes (k : String) : Out String :=
  if k.length < 2 then .panic "slice bounds out of range" else .ok (String.ofList k.toList.tail.dropLast)

/-- jsonschemaconv.go:145-152: one pattern property. -/
def visitPattern (rec : Addr → M Defs (Option JS)) (kp : String × PatternProperty) : M Defs (String × Option JS) :=
  M.bind (M.lift (trimSlashes kp.1)) fun k => visitEntry rec (k, kp.2.base)

/-- jsonschemaconv.go:127-155 `VisitObjectShape`. -/
def visitObject (rec : Addr → M Defs (Option JS)) (h : St) (node : JS) (f : ObjectF) : M Defs JS :=
  M.bind (match f.properties with
    | none => M.ret none
    | some i => M.bind (M.collect (visitEntry rec) ((h.props (some i)).map fun e => (e.1, e.2.base))) fun l => M.ret (some l)) fun ps =>
  M.bind (match f.patternProperties with
    | none => M.ret none
    | some i => M.bind (M.collect (visitPattern rec) (h.patProps (some i))) fun l => M.ret (some l)) fun pps =>
  M.ret
    { node with
      core := { node.core with
        type := "object"
        minProperties := f.minProperties
        maxProperties := f.maxProperties
        additionalProperties := f.additionalProperties
        required := ((h.props f.properties).filter fun e => e.2.required).map (·.1) }
      properties := ps
      patternProperties := pps }

/-- jsonschemaconv.go:157-170 `VisitArrayShape`. -/
def visitArrayShape (rec : Addr → M Defs (Option JS)) (node : JS) (f : ArrayF) : M Defs JS :=
  M.bind (match f.items with
    | none => M.ret none
    | some i => rec i) fun it =>
  M.ret
    { node with
      core := { node.core with
        type := "array", minItems := f.minItems, maxItems := f.maxItems, uniqueItems := f.uniqueItems }
      items := it }

/-- jsonschemaconv.go:172-181 `VisitUnionShape`. -/
def visitUnionShape (rec : Addr → M Defs (Option JS)) (h : St) (node : JS) (anyOf : Option Nat) : M Defs JS :=
  M.bind (M.collect rec (h.slice anyOf)) fun l => M.ret { node with anyOf := l }

/-- jsonschemaconv.go:183-199 `VisitStringShape`. -/
def stringSchema (node : JS) (f : StringF) : JS :=
  { node with core := { node.core with
      type := "string", minLength := f.minLength, maxLength := f.maxLength, pattern := f.pattern.getD "", enum := f.enum.getD [] } }

/-- jsonschemaconv.go:201-222 `VisitIntegerShape`. -/
def integerSchema (node : JS) (f : IntegerF) : JS :=
  { node with core := { node.core with
      type := "integer", minimum := f.minimum.map .int, maximum := f.maximum.map .int, multipleOf := f.multipleOf.map .float
      enum := f.enum.getD [] } }

/-- jsonschemaconv.go:224-245 `VisitNumberShape`. -/
def numberSchema (node : JS) (f : NumberF) : JS :=
  { node with core := { node.core with
      type := "number", minimum := f.minimum.map .float, maximum := f.maximum.map .float, multipleOf := f.multipleOf.map .float
      enum := f.enum.getD [] } }

/-- jsonschemaconv.go:247-264 `VisitFileShape`. -/
def fileSchema (node : JS) (f : FileF) : Out JS :=
  let core := { node.core with type := "string", minLength := f.minLength, maxLength := f.maxLength, contentEncoding := "base64" }
  match f.fileTypes with
  | none => .ok { node with core }
  | some [] => .panic "index out of range"
  | some (.str t :: _) => .ok { node with core := { core with contentMediaType := t } }
  | some _ => .panic "file type must be a string"

/-- jsonschemaconv.go:266-277 `VisitBooleanShape`. -/
def booleanSchema (node : JS) (enum : Option (List GoVal)) : JS :=
  { node with core := { node.core with type := "boolean", enum := enum.getD [] } }

/-- jsonschemaconv.go:280-298 `VisitDateTimeShape`. -/
def datetimeSchema (node : JS) (format : Option String) : JS :=
  match format with
  | none => { node with core := { node.core with type := "string", format := "date-time" } }
  | some "rfc3339" => { node with core := { node.core with type := "string", format := "date-time" } }
  | some "rfc2616" =>
    { node with core := { node.core with type := "string", pattern := "^(Mon|Tue|Wed|Thu|Fri|Sat|Sun), ([0-3][0-9]) (Jan|Feb|Mar|Apr|May|Jun|Jul|Aug|Sep|Oct|Nov|Dec) ([0-9]{4}) ([01][0-9]|2[0-3]):[0-5][0-9]:[0-5][0-9] GMT$" } }
  | some _ => { node with core := { node.core with type := "string" } }

/-- jsonschemaconv.go:300-306 `VisitDateTimeOnlyShape`. -/
def datetimeOnlySchema (node : JS) : JS :=
  { node with core := { node.core with type := "string", pattern := "^[0-9]{4}-(?:0[0-9]|1[0-2])-(?:[0-2][0-9]|3[01])T(?:[01][0-9]|2[0-3]):[0-5][0-9]:[0-5][0-9]$" } }

mutual
/-- jsonschemaconv.go:392-480 `recast` with a wrapper and no base shape: the RAML extensions are lost, empty maps become nil. -/
def JS.recast : JS → JS
  | .mk core ds al an on n i t e it pn ps pps _ _ _ =>
    { core, definitions := recastEntries ds, allOf := recastList al, anyOf := recastList an, oneOf := recastList on
      not_ := recastOpt n, if_ := recastOpt i, then_ := recastOpt t, else_ := recastOpt e, items := recastOpt it
      propertyNames := recastOpt pn, properties := recastMap ps, patternProperties := recastMap pps }
/-- jsonschemaconv.go:387-390: a nil schema. -/
def recastOpt : Option JS → Option JS
  | none => none
  | some s => some s.recast
/-- jsonschemaconv.go:440-457: a slice of schemas. -/
def recastList : List (Option JS) → List (Option JS)
  | [] => []
  | s :: l => recastOpt s :: recastList l
/-- jsonschemaconv.go:458-469: a map of schemas behind a pointer. -/
def recastMap : Option (List (String × Option JS)) → Option (List (String × Option JS))
  | none => none
  | some [] => none
  | some (e :: m) => some (recastEntry e :: recastEntries m)
/-- jsonschemaconv.go:458-475: the entries of a map. -/
def recastEntries : List (String × Option JS) → List (String × Option JS)
  | [] => []
  | e :: m => recastEntry e :: recastEntries m
/-- jsonschemaconv.go:458-475: one entry. -/
def recastEntry : String × Option JS → String × Option JS
  | (k, s) => (k, recastOpt s)
end

/-- jsonschemaconv.go:360-384 `VisitJSONShape`: the embedded schema, with title, description, default and examples of the RAML type where it
has them.  A nil schema is dereferenced. -/
def jsonShapeSchema (node : JS) (schema : Option JS) : Out JS :=
  match schema with
  | none => .panic "nil pointer dereference"
  | some s =>
    let src := s.recast
    .ok { src with
      core := { src.core with
        version := ""
        title := if node.core.title = "" then src.core.title else node.core.title
        description := if node.core.description = "" then src.core.description else node.core.description
        default := match node.core.default with | .nil => src.core.default | v => v
        examples := if node.core.examples = [] then src.core.examples else node.core.examples }
      annotations := node.annotations, facetDefinitions := node.facetDefinitions, facetData := node.facetData }

/-- The key of a definition in a `$ref`. -/
def refTo (name : String) : String := "#/definitions/" ++ name

/-- jsonschemaconv.go:335-358 `VisitRecursiveShape`. -/
def visitRecursive (w : Wrap) (rec : Addr → M Defs (Option JS)) (h : St) (head : Addr) : M Defs JS :=
  M.bind (wrapNode w rec h {} none) fun node =>
  match h.base head with
  | none => M.panic "nil pointer dereference"
  | some b =>
    if b.shape.isNone then M.panic "nil pointer dereference"
    else
      M.bind M.get fun defs =>
      M.bind (if (OMap.get defs b.name).isSome then M.ret ()
        else
          M.bind (M.modify fun defs => OMap.set defs b.name none) fun _ =>
          M.bind (rec head) fun s =>
          M.modify fun defs => OMap.set defs b.name s) fun _ =>
      M.ret { node with core := { node.core with ref := refTo b.name } }

/-- jsonschemaconv.go:87-125 `Visit` by dynamic type.  A nil or unknown shape gives a nil schema. -/
def visitShape (w : Wrap) (rec : Addr → M Defs (Option JS)) (h : St) (b : Base) (s : Option Shape) : M Defs (Option JS) :=
  let node := makeSchema w rec h b
  match s with
  | some (.object f) => M.bind node fun x => M.bind (visitObject rec h x f) fun y => M.ret (some y)
  | some (.array f) => M.bind node fun x => M.bind (visitArrayShape rec x f) fun y => M.ret (some y)
  | some (.string f) => M.bind node fun x => M.ret (some (stringSchema x f))
  | some (.number f) => M.bind node fun x => M.ret (some (numberSchema x f))
  | some (.integer f) => M.bind node fun x => M.ret (some (integerSchema x f))
  | some (.boolean e) => M.bind node fun x => M.ret (some (booleanSchema x e))
  | some (.file f) => M.bind node fun x => M.bind (M.lift (fileSchema x f)) fun y => M.ret (some y)
  | some (.union l _) => M.bind node fun x => M.bind (visitUnionShape rec h x l) fun y => M.ret (some y)
  | some .nil => M.bind node fun x => M.ret (some { x with core := { x.core with type := "null" } })
  | some .any => M.bind node fun x => M.ret (some x)
  | some (.datetime f) => M.bind node fun x => M.ret (some (datetimeSchema x f))
  | some .datetimeOnly => M.bind node fun x => M.ret (some (datetimeOnlySchema x))
  | some .dateOnly => M.bind node fun x => M.ret (some { x with core := { x.core with type := "string", format := "date" } })
  | some .timeOnly => M.bind node fun x => M.ret (some { x with core := { x.core with type := "string", format := "time" } })
  | some (.json _ sc) => M.bind node fun x => M.bind (M.lift (jsonShapeSchema x sc)) fun y => M.ret (some y)
  | some (.recursive hd) => M.bind (visitRecursive w rec h hd) fun y => M.ret (some y)
  | some (.unknown _) => M.ret none
  | none => M.ret none

/-- jsonschemaconv.go:87-125 `Visit`. -/
def visit (w : Wrap) (h : St) : Nat → Addr → M Defs (Option JS)
  | 0, _ => M.diverge
  | n + 1, a =>
    match h.base a with
    | none => M.panic "nil pointer dereference"
    | some b => visitShape w (visit w h n) h b b.shape

/-- The schema `Convert` returns for the given definitions (jsonschemaconv.go:74-84). -/
def rootSchema (name : String) (defs : Defs) : JS :=
  { core := { version := "http://json-schema.org/draft-07/schema", ref := refTo name }, definitions := defs }

/-- jsonschemaconv.go:61-85 `Convert`. -/
def convert (w : Wrap) (h : St) (n : Nat) (a : Addr) : Out JS :=
  match h.base a with
  | none => .panic "nil pointer dereference"
  | some b =>
    if b.unwrapped then
      match visit w h n a [(b.name, none)] with
      | (.ok s, defs) => if w = .unset then .panic "interface conversion" else .ok (rootSchema b.name (OMap.set defs b.name s))
      | (.err e, _) => .err e
      | (.panic e, _) => .panic e
      | (.diverge, _) => .diverge
    else .err "entrypoint shape must be unwrapped"

end GoRaml
