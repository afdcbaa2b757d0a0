import Verif.Model.Inherit

/-!
# Aliases (shape.go:266-284 and the `alias` methods in complex.go, scalars.go)
-/

namespace GoRaml

/-- `target.alias(source)`: all facets of the source are copied (scalars.go:95, 320, 517, 689, 944, 1049, 1122, 1195,
1268, 1333, complex.go:59, 377, 834, 974, 1063), including the pointers to maps, slices and item types.  For booleans
nothing is copied (scalars.go:838-847).  An unknown target (complex.go:1028) and a source of another dynamic type are
errors. -/
def aliasShape : Shape → Shape → Out Shape
  | .any, .any => .ok .any
  | .nil, .nil => .ok .nil
  | .object _, .object g => .ok (.object g)
  | .array _, .array g => .ok (.array g)
  | .string _, .string g => .ok (.string g)
  | .integer _, .integer g => .ok (.integer g)
  | .number _, .number g => .ok (.number g)
  | .datetime _, .datetime g => .ok (.datetime g)
  | .datetimeOnly, .datetimeOnly => .ok .datetimeOnly
  | .dateOnly, .dateOnly => .ok .dateOnly
  | .timeOnly, .timeOnly => .ok .timeOnly
  | .file _, .file g => .ok (.file g)
  | .boolean e, .boolean _ => .ok (.boolean e)
  | .union _ _, .union l e => .ok (.union l e)
  | .json _ _, .json raw schema => .ok (.json raw schema)
  | .recursive _, .recursive y => .ok (.recursive y)
  | .unknown _, _ => .err "cannot alias from unknown shape"
  | _, _ => .err "cannot make alias from different type"

/-- shape.go:266-284 `AliasTo`: `a.AliasTo(b)`.  A nil shape on either side is dereferenced. -/
def aliasTo (a b : Addr) : M St Addr :=
  M.bind (Heap.getShape a) fun t =>
  M.bind (Heap.getShape b) fun s =>
  M.bind (M.lift (aliasShape t s)) fun sh =>
  M.bind (setShape a sh) fun _ =>
  M.bind (Heap.getBase b) fun src =>
  M.bind (Heap.updBase a fun x =>
    { x with
      displayName := src.displayName
      description := src.description
      example_ := src.example_
      examples := src.examples
      inherits := src.inherits
      «alias» := src.alias
      default := src.default
      required := src.required
      facets := src.facets
      facetDefs := src.facetDefs
      domainProps := src.domainProps }) fun _ =>
  M.ret a

end GoRaml
