import Verif.Model.Yaml

/-!
# The type inferred from facets (shape.go:470-522)
-/

namespace GoRaml

/-- shape.go:476-498: the type `ft` a facet belongs to, and whether it sets `stringOnly`; `none` if `ok` stays false. -/
def facetType (name : String) : Option (String × Bool) :=
  if name = "minLength" ∨ name = "maxLength" then some ("string", false)
  else if name = "pattern" then some ("string", true)
  else if name = "minimum" ∨ name = "maximum" ∨ name = "multipleOf" then some ("number", false)
  else if name = "minItems" ∨ name = "maxItems" ∨ name = "uniqueItems" ∨ name = "items" then some ("array", false)
  else if name = "minProperties" ∨ name = "maxProperties" ∨ name = "additionalProperties" ∨ name = "properties" ∨
    name = "discriminator" then some ("object", false)
  else if name = "fileTypes" then some ("file", false)
  else none

/-- shape.go:499-516: one facet; the state is `t` and `stringOnly`. -/
def identifyStep (st : String × Bool) (name : String) : Out (String × Bool) :=
  match facetType name with
  | none => .ok st
  | some (ft, only) =>
    let stringOnly := st.2 || only
    let promote := (st.1 = "string" ∧ ft = "file" ∨ st.1 = "file" ∧ ft = "string") ∧ stringOnly = false
    let t := if promote then "file" else st.1
    let ft := if promote then "file" else ft
    if t ≠ "" ∧ ft ≠ t then .err "detected types by facets are not equal" else .ok (ft, stringOnly)

/-- shape.go:474-517: the loop; keys and values alternate. -/
def identifyLoop : List YNode → String × Bool → Out (String × Bool)
  | [], st => .ok st
  | k :: rest, st =>
    (identifyStep st k.value).bind fun st' =>
      match rest with
      | [] => .panic "index out of range"
      | _ :: rest' => identifyLoop rest' st'

/-- shape.go:471-522 `identifyShapeType`. -/
def identifyShapeType (facets : List YNode) : Out String :=
  (identifyLoop facets ("", false)).bind fun st => .ok (if st.1 = "" then "string" else st.1)

end GoRaml
