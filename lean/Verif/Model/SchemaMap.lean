import Verif.Model.Schema

/-!
# Copying schemas and turning them into maps (schema.go)

Schemas are values here, so that a copy that drops or mixes up a part is seen, but not which parts of memory a copy shares.
-/

namespace GoRaml

mutual
/-- schema.go:95-166 `JSONSchemaGeneric.DeepCopy`, 369-374 and 420-444 `DeepCopy` of the two dialects. -/
def JS.deepCopy : JS → JS
  | .mk core ds al an on n i t e it pn ps pps anns fds fd =>
    { core, definitions := copyEntries ds, allOf := copyList al, anyOf := copyList an, oneOf := copyList on
      not_ := copyOpt n, if_ := copyOpt i, then_ := copyOpt t, else_ := copyOpt e, items := copyOpt it
      propertyNames := copyOpt pn, properties := copyMap ps, patternProperties := copyMap pps
      annotations := anns, facetDefinitions := copyMap fds, facetData := fd }
/-- schema.go:369-371, 414-416: nil stays nil. -/
def copyOpt : Option JS → Option JS
  | none => none
  | some s => some s.deepCopy
/-- schema.go:119-138: a slice of schemas. -/
def copyList : List (Option JS) → List (Option JS)
  | [] => []
  | s :: l => copyOpt s :: copyList l
/-- schema.go:147-159, 425-430: a map of schemas behind a pointer. -/
def copyMap : Option (List (String × Option JS)) → Option (List (String × Option JS))
  | none => none
  | some m => some (copyEntries m)
/-- schema.go:147-166: the entries of a map. -/
def copyEntries : List (String × Option JS) → List (String × Option JS)
  | [] => []
  | e :: m => copyEntry e :: copyEntries m
/-- schema.go:147-166: one entry. -/
def copyEntry : String × Option JS → String × Option JS
  | (k, s) => (k, copyOpt s)
end

/-- `if s != "" { out[k] = s }` -/
def strField (k s : String) : List (String × GoVal) := if s = "" then [] else [(k, .str s)]
/-- `if v := uint64PtrToNumber(p); v != "" { out[k] = v }` (schema.go:506-511); a `json.Number` is the number it denotes. -/
def natField (k : String) (n : Option Nat) : List (String × GoVal) := n.toList.map fun (n : Nat) => (k, .int n)
/-- The value of a `json.Number`. -/
def JNum.val : JNum → GoVal
  | .int z => .int z
  | .float f => .float f
/-- `if n != "" { out[k] = n }` for a `json.Number`. -/
def numField (k : String) (n : Option JNum) : List (String × GoVal) := n.toList.map fun n => (k, n.val)
/-- `if b := boolPtr(p); b != nil { out[k] = b }` (schema.go:513-518). -/
def boolField (k : String) (b : Option Bool) : List (String × GoVal) := b.toList.map fun b => (k, .bool b)
/-- `if v != nil { out[k] = v }` -/
def valField (k : String) : GoVal → List (String × GoVal)
  | .nil => []
  | v => [(k, v)]
/-- `if len(l) > 0 { out[k] = l }` -/
def listField (k : String) (l : List GoVal) : List (String × GoVal) := if l = [] then [] else [(k, .arr l)]
/-- `if m.Len() > 0 { out[k] = m }` -/
def mapField (k : String) (m : List (String × GoVal)) : List (String × GoVal) := if m = [] then [] else [(k, .map m)]

/-- schema.go:179-262: the flat keywords. -/
def JSCore.fields (c : JSCore) : List (String × GoVal) :=
  strField "$schema" c.version ++ (strField "$id" c.id ++ (strField "$ref" c.ref ++ (strField "$comment" c.comment ++
  (strField "type" c.type ++ (listField "enum" c.enum ++ (valField "const" c.const ++
  (numField "multipleOf" c.multipleOf ++ (numField "maximum" c.maximum ++ (numField "minimum" c.minimum ++
  (natField "maxLength" c.maxLength ++ (natField "minLength" c.minLength ++ (strField "pattern" c.pattern ++
  (natField "maxItems" c.maxItems ++ (natField "minItems" c.minItems ++ (boolField "uniqueItems" c.uniqueItems ++
  (natField "maxContains" c.maxContains ++ (natField "minContains" c.minContains ++
  (natField "maxProperties" c.maxProperties ++ (natField "minProperties" c.minProperties ++
  (listField "required" (c.required.map .str) ++ (strField "contentEncoding" c.contentEncoding ++
  (strField "contentMediaType" c.contentMediaType ++ (strField "format" c.format ++ (strField "title" c.title ++
  (strField "description" c.description ++ (valField "default" c.default ++ (listField "examples" c.examples ++
  boolField "additionalProperties" c.additionalProperties)))))))))))))))))))))))))))

mutual
/-- schema.go:169-344 `JSONSchemaGeneric.Map` and 446-473 `JSONSchemaRAML.Map`, as the list of the entries of the Go map. -/
def JS.toMap : JS → List (String × GoVal)
  | .mk core ds al an on n i t e it pn ps pps anns fds fd =>
    core.fields ++ (mapField "definitions" (mapEntries ds) ++ (listField "allOf" (mapList al) ++ (listField "anyOf" (mapList an) ++
    (listField "oneOf" (mapList on) ++ (valField "not" (mapOpt n) ++ (valField "if" (mapOpt i) ++ (valField "then" (mapOpt t) ++
    (valField "else" (mapOpt e) ++ (valField "items" (mapOpt it) ++ (mapField "properties" (mapMap ps) ++
    (mapField "patternProperties" (mapMap pps) ++ (valField "propertyNames" (mapOpt pn) ++
    (mapField "x-annotations" (anns.getD []) ++ (mapField "x-facet-definitions" (mapMap fds) ++
    mapField "x-facet-data" (fd.getD [])))))))))))))))
/-- schema.go:174-176, 443-445: the map of a nil schema is nil. -/
def mapOpt : Option JS → GoVal
  | none => .nil
  | some s => .map s.toMap
/-- schema.go:272-292: a slice of schemas. -/
def mapList : List (Option JS) → List GoVal
  | [] => []
  | s :: l => mapOpt s :: mapList l
/-- schema.go:315-328: a map of schemas behind a pointer. -/
def mapMap : Option (List (String × Option JS)) → List (String × GoVal)
  | none => []
  | some m => mapEntries m
/-- schema.go:264-270, 315-328: the entries of a map. -/
def mapEntries : List (String × Option JS) → List (String × GoVal)
  | [] => []
  | e :: m => mapEntry e :: mapEntries m
/-- schema.go:264-270: one entry. -/
def mapEntry : String × Option JS → String × GoVal
  | (k, s) => (k, mapOpt s)
end

end GoRaml
