import Verif.Model.Yaml

/-!
# Data structures: schemas, shapes and the heap

Pointers are indices into the lists of the state `St`, so that sharing is explicit.
-/

namespace GoRaml

/-- A `json.Number` by the number it denotes (schema.go:66-68). -/
inductive JNum where
  | int (z : Int)
  | float (f : F64)
  deriving Repr, DecidableEq

/-- Keywords of `JSONSchemaGeneric` (schema.go:30-84) that hold no sub-schema.  Empty slices
and nil slices are identified (all uses test `len > 0` or have `omitempty`). -/
structure JSCore where
  version : String := ""
  id : String := ""
  ref : String := ""
  comment : String := ""
  additionalProperties : Option Bool := none
  type : String := ""
  enum : List GoVal := []
  const : GoVal := .nil
  multipleOf : Option JNum := none
  maximum : Option JNum := none
  minimum : Option JNum := none
  maxLength : Option Nat := none
  minLength : Option Nat := none
  pattern : String := ""
  maxItems : Option Nat := none
  minItems : Option Nat := none
  uniqueItems : Option Bool := none
  maxContains : Option Nat := none
  minContains : Option Nat := none
  maxProperties : Option Nat := none
  minProperties : Option Nat := none
  required : List String := []
  contentEncoding : String := ""
  contentMediaType : String := ""
  format : String := ""
  title : String := ""
  description : String := ""
  default : GoVal := .nil
  examples : List GoVal := []

/-- `JSONSchemaRAML` (schema.go:385-390); a plain `JSONSchema` (schema.go:356-358) is one whose
three RAML extensions are absent.  Sub-schema pointers may be nil (`none`).  `Definitions` is a Go map,
kept as the list of its entries. -/
structure JS where
  core : JSCore := {}
  definitions : List (String × Option JS) := []
  allOf : List (Option JS) := []
  anyOf : List (Option JS) := []
  oneOf : List (Option JS) := []
  not_ : Option JS := none
  if_ : Option JS := none
  then_ : Option JS := none
  else_ : Option JS := none
  items : Option JS := none
  propertyNames : Option JS := none
  properties : Option (List (String × Option JS)) := none
  patternProperties : Option (List (String × Option JS)) := none
  annotations : Option (List (String × GoVal)) := none
  facetDefinitions : Option (List (String × Option JS)) := none
  facetData : Option (List (String × GoVal)) := none

/-- Address of a `BaseShape`. -/
abbrev Addr := Nat

/-- complex.go:24-29 `ArrayFacets`. -/
structure ArrayF where
  items : Option Addr := none
  minItems : Option Nat := none
  maxItems : Option Nat := none
  uniqueItems : Option Bool := none
  deriving Repr, DecidableEq

/-- complex.go:225-233 `ObjectFacets`.  `properties` and `patternProperties` are pointers to ordered maps
(indices into `St.pmaps` / `St.ppmaps`). -/
structure ObjectF where
  discriminator : Option String := none
  discriminatorValue : GoVal := .nil
  additionalProperties : Option Bool := none
  properties : Option Nat := none
  patternProperties : Option Nat := none
  minProperties : Option Nat := none
  maxProperties : Option Nat := none
  deriving Repr

/-- scalars.go:56-64, 74-81 facets of `IntegerShape`. -/
structure IntegerF where
  minimum : Option Int := none
  maximum : Option Int := none
  multipleOf : Option F64 := none
  format : Option String := none
  enum : Option (List GoVal) := none
  deriving Repr

/-- scalars.go:290-304 facets of `NumberShape`. -/
structure NumberF where
  minimum : Option F64 := none
  maximum : Option F64 := none
  multipleOf : Option F64 := none
  format : Option String := none
  enum : Option (List GoVal) := none
  deriving Repr

/-- scalars.go:485-501 facets of `StringShape`; a `*regexp.Regexp` is represented by its source. -/
structure StringF where
  minLength : Option Nat := none
  maxLength : Option Nat := none
  pattern : Option String := none
  enum : Option (List GoVal) := none
  deriving Repr

/-- scalars.go:662-673 facets of `FileShape`. -/
structure FileF where
  minLength : Option Nat := none
  maxLength : Option Nat := none
  fileTypes : Option (List GoVal) := none
  deriving Repr

/-- The concrete shapes (implementations of the `Shape` interface).  The embedded pointer to
`BaseShape` is left implicit: a shape is stored in the cell of its base. `Nodes` (enum values, file
types) are kept by their `Value`. -/
inductive Shape where
  | any
  | nil
  | object (f : ObjectF)
  | array (f : ArrayF)
  | string (f : StringF)
  | integer (f : IntegerF)
  | number (f : NumberF)
  | datetime (format : Option String)
  | datetimeOnly
  | dateOnly
  | timeOnly
  | file (f : FileF)
  | boolean (enum : Option (List GoVal))
  | union (anyOf : Option Nat) (enum : Option (List GoVal))
  | json (raw : String) (schema : Option JS)
  | unknown (facets : Option (List YNode))
  | recursive (head : Addr)

/-- complex.go:779-784 `Property`. -/
structure Property where
  name : String
  base : Addr
  required : Bool
  deriving Repr, DecidableEq

/-- complex.go:787-792 `PatternProperty`; `pattern` is the source of the regular expression. -/
structure PatternProperty where
  pattern : String
  base : Addr
  deriving Repr, DecidableEq

/-- example.go:108-121 `Example`: the parts that validation and conversion read. -/
structure Example where
  data : GoVal
  strict : Bool := true
  deriving Repr

/-- shape.go:408-417 `Examples`: inline map, or link to a NamedExample fragment (its examples). -/
structure Examples where
  map : Option (OMap Example) := none
  link : Option (OMap Example) := none
  deriving Repr

/-- shape.go:43-78 `BaseShape`.  `inherits` is a slice (index into `St.slices`, `none` = nil slice),
`link` an index into `St.dts`, `facets` (CustomShapeFacets) an index into `St.fmaps`, `facetDefs`
(CustomShapeFacetDefinitions) an index into `St.pmaps`, `domainProps` the annotations (indices of domain extensions; that
map is never changed after decoding, so it is kept by value). -/
structure Base where
  shape : Option Shape := none
  id : Int := 0
  name : String := ""
  displayName : Option String := none
  description : Option String := none
  type : String := ""
  typeLabel : String := ""
  example_ : Option Example := none
  examples : Option Examples := none
  inherits : Option Nat := none
  alias : Option Addr := none
  default : Option GoVal := none
  required : Option Bool := none
  link : Option Nat := none
  facets : Option Nat := none
  facetDefs : Option Nat := none
  domainProps : OMap Nat := []
  unwrapped : Bool := false
  visited : Bool := false
  location : String := ""

/-- fragment.go:47-60 `Library` (custom domain properties and usage text omitted).  `uses` maps an alias to the
path it names and the linked library (index into `St.libs`). -/
structure Lib where
  location : String := ""
  types : OMap Addr := []
  annotationTypes : OMap Addr := []
  uses : OMap (String × Option Nat) := []
  deriving Repr

/-- fragment.go:270-278 `DataType`. -/
structure DT where
  location : String := ""
  shape : Option Addr := none
  uses : OMap (String × Option Nat) := []
  deriving Repr

/-- A `Fragment` interface value held in the fragment cache. -/
inductive FragRef where
  | library (i : Nat)
  | dataType (i : Nat)
  | namedExample (i : Nat)
  deriving Repr, DecidableEq

/-- extension.go:9-18 `DomainExtension`. -/
structure DomainExt where
  name : String
  value : GoVal
  location : String := ""
  definedBy : Option Addr := none
  deriving Repr

/-- The heap together with the fields of `RAML` (raml.go:14-33) the model uses.  `nes` holds the `Map` of the NamedExample fragments
(fragment.go:371-377). -/
structure St where
  bases : List Base := []
  pmaps : List (OMap Property) := []
  ppmaps : List (OMap PatternProperty) := []
  slices : List (List Addr) := []
  fmaps : List (OMap GoVal) := []
  libs : List Lib := []
  dts : List DT := []
  idCounter : Int := 0
  shapes : List Addr := []
  unresolved : List Addr := []
  fragments : OMap FragRef := []
  fragTypes : OMap (OMap Addr) := []
  fragAnnotationTypes : OMap (OMap Addr) := []
  domainExts : List DomainExt := []
  nes : List (OMap Example) := []

namespace St

/-- Dereference of a `*BaseShape`. -/
def base (h : St) (a : Addr) : Option Base := h.bases[a]?

/-- The concrete shape stored in a base. -/
def shapeAt (h : St) (a : Addr) : Option Shape := (h.base a).bind (·.shape)

/-- Entries of an ordered map of properties behind a possibly nil pointer
(`Oldest()` of a nil map is nil). -/
def props (h : St) (p : Option Nat) : OMap Property :=
  match p with
  | none => []
  | some i => (h.pmaps[i]?).getD []

/-- Entries of an ordered map of pattern properties behind a possibly nil pointer. -/
def patProps (h : St) (p : Option Nat) : OMap PatternProperty :=
  match p with
  | none => []
  | some i => (h.ppmaps[i]?).getD []

/-- Elements of a slice of `*BaseShape` (nil slice = empty). -/
def slice (h : St) (p : Option Nat) : List Addr :=
  match p with
  | none => []
  | some i => (h.slices[i]?).getD []

/-- Entries of a custom facet map behind a possibly nil pointer. -/
def facetMap (h : St) (p : Option Nat) : OMap GoVal :=
  match p with
  | none => []
  | some i => (h.fmaps[i]?).getD []

end St

end GoRaml
