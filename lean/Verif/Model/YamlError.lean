import Verif.Model.Heap

/-!
# Errors of the YAML decoder (stacktrace.go)
-/

namespace GoRaml

/-- A Go `error`.  `type` is a `*yaml.TypeError`; `wrap` has `Unwrap() error`, as from `fmt.Errorf` with one `%w`; `join` has `Unwrap() []error`; `plain` has
neither.  The text is that of the whole error.  Errors with a method `As` of their own are not modelled. -/
inductive GoError where
  | type (errors : List String)
  | plain (text : String)
  | wrap (text : String) (inner : GoError)
  | join (text : String) (inner : List GoError)

/-- `Error()`; for a `*yaml.TypeError` as in yaml.v3, yaml.go. -/
def GoError.text : GoError → String
  | .type es => "yaml: unmarshal errors:\n  " ++ String.intercalate "\n  " es
  | .plain t => t
  | .wrap t _ => t
  | .join t _ => t

mutual
/-- `errors.As(err, &yamlError)`: the first in the tree, in pre-order. -/
def errorsAs : GoError → Option (List String)
  | .type es => some es
  | .plain _ => none
  | .wrap _ e => errorsAs e
  | .join _ es => errorsAsList es
/-- The loop of `errors.As` over several errors. -/
def errorsAsList : List GoError → Option (List String)
  | [] => none
  | e :: es =>
    match errorsAs e with
    | some y => some y
    | none => errorsAsList es
end

/-- stacktrace.go:35-53 `GetYamlError`, the `Errors` of the result; `strip whole part` is `strings.TrimSuffix(strings.ReplaceAll(whole, part, ""), ": ")`. -/
def getYamlError (strip : String → String → String) : GoError → Option (List String)
  | .wrap t e =>
    match errorsAs (.wrap t e) with
    | some y => some y
    | none =>
      match getYamlError strip e with
      | some y => some (strip t (GoError.type y).text :: y)
      | none => none
  | e => errorsAs e

/-- stacktrace.go:56-64 `FixYamlError`. -/
def fixYamlError (strip : String → String → String) : Option GoError → Option GoError
  | none => none
  | some e =>
    match getYamlError strip e with
    | some y => some (.plain (String.intercalate ": " y))
    | none => some e

end GoRaml
