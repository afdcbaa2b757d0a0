import Verif.Lemmas.SchemaMap

/-!
# C52: schema copies and maps are lossless
-/

namespace GoRaml.Props

open GoRaml GoRaml.Spec

/-- C52: a copy equals the schema. -/
theorem c52_copy (s : JS) : s.deepCopy = s := deepCopy_eq s

/-- C52: the map of a schema has an entry for each keyword that is set, with its value, and no other entry. -/
theorem c52_map_entries (s : JS) (k : String) (v : GoVal) : (k, v) ∈ s.toMap ↔ Keyword mapOpt s k v :=
  ⟨keyword_of_mem, mem_of_keyword⟩

/-- C52: no two entries of the map of a schema have the same keyword. -/
theorem c52_map_keys (s : JS) : (s.toMap.map (·.1)).Nodup := by
  obtain ⟨core, ds, al, an, on, n, i, t, e, it, pn, ps, pps, anns, fds, fd⟩ := s
  rw [JS.toMap, JSCore.fields]
  simp only [List.append_assoc, List.map_append]
  refine List.Nodup.sublist (l₂ := ["$schema", "$id", "$ref", "$comment", "type", "enum", "const", "multipleOf", "maximum", "minimum", "maxLength", "minLength", "pattern", "maxItems", "minItems", "uniqueItems", "maxContains", "minContains", "maxProperties", "minProperties", "required", "contentEncoding", "contentMediaType", "format", "title", "description", "default", "examples", "additionalProperties", "definitions", "allOf", "anyOf", "oneOf", "not", "if", "then", "else", "items", "properties", "patternProperties", "propertyNames", "x-annotations", "x-facet-definitions", "x-facet-data"]) ?_ (by decide)
  exact List.Sublist.append strField_keys (List.Sublist.append strField_keys (List.Sublist.append strField_keys (List.Sublist.append strField_keys (List.Sublist.append strField_keys (List.Sublist.append listField_keys (List.Sublist.append valField_keys (List.Sublist.append numField_keys (List.Sublist.append numField_keys (List.Sublist.append numField_keys (List.Sublist.append natField_keys (List.Sublist.append natField_keys (List.Sublist.append strField_keys (List.Sublist.append natField_keys (List.Sublist.append natField_keys (List.Sublist.append boolField_keys (List.Sublist.append natField_keys (List.Sublist.append natField_keys (List.Sublist.append natField_keys (List.Sublist.append natField_keys (List.Sublist.append listField_keys (List.Sublist.append strField_keys (List.Sublist.append strField_keys (List.Sublist.append strField_keys (List.Sublist.append strField_keys (List.Sublist.append strField_keys (List.Sublist.append valField_keys (List.Sublist.append listField_keys (List.Sublist.append boolField_keys (List.Sublist.append mapField_keys (List.Sublist.append listField_keys (List.Sublist.append listField_keys (List.Sublist.append listField_keys (List.Sublist.append valField_keys (List.Sublist.append valField_keys (List.Sublist.append valField_keys (List.Sublist.append valField_keys (List.Sublist.append valField_keys (List.Sublist.append mapField_keys (List.Sublist.append mapField_keys (List.Sublist.append valField_keys (List.Sublist.append mapField_keys (List.Sublist.append mapField_keys (mapField_keys)))))))))))))))))))))))))))))))))))))))))))

/-- C52: two schemas with the same map are the same, up to empty maps. -/
theorem c52_map_determines {s t : JS} (h : s.toMap = t.toMap) : SameSchema (some s) (some t) := by
  refine ⟨fun x y => mapOpt x = mapOpt y, congrArg GoVal.map h, ?_⟩
  intro x y hxy
  cases x with
  | none =>
    cases y with
    | none => exact .inl ⟨rfl, rfl⟩
    | some y => cases mapOpt_nil.1 hxy.symm
  | some x =>
    cases y with
    | none => cases mapOpt_nil.1 hxy
    | some y =>
      exact .inr ⟨x, y, rfl, rfl, sameKeywords_of_toMap (GoVal.map.inj hxy)⟩

/-- A schema that uses keywords of every kind, at two levels. -/
def exMapped : JS :=
  { core := { type := "object", required := ["a"], minProperties := some 1, additionalProperties := some false, default := .map [] }
    properties := some [("a", some { core := { type := "integer", maximum := some (.int 3) } }), ("b", none)]
    anyOf := [some {}, none], not_ := some { core := { enum := [.str "x"] } }, annotations := some [], facetData := some [("u", .int 1)] }

/-- Non-vacuity: its copy and its map. -/
example : exMapped.deepCopy = exMapped ∧ exMapped.toMap =
    [("type", .str "object"), ("minProperties", .int 1), ("required", .arr [.str "a"]), ("default", .map []),
     ("additionalProperties", .bool false), ("anyOf", .arr [.map [], .nil]), ("not", .map [("enum", .arr [.str "x"])]),
     ("properties", .map [("a", .map [("type", .str "integer"), ("maximum", .int 3)]), ("b", .nil)]), ("x-facet-data", .map [("u", .int 1)])] :=
  ⟨rfl, rfl⟩

/-- Non-vacuity: two schemas that differ in an empty map have the same map. -/
example : exMapped.toMap = { exMapped with annotations := none }.toMap ∧ exMapped ≠ { exMapped with annotations := none } :=
  ⟨rfl, fun h => by cases congrArg JS.annotations h⟩

end GoRaml.Props
