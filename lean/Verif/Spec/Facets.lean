/-!
# Specification of type inference (C31)
-/

namespace GoRaml.Spec

/-- The facets specific to one or two types, as in the RAML 1.0 specification (facets allowed everywhere, facets shared
by more types, and custom facets are in no list). -/
def facetsOf : List (String × List String) :=
  [("string", ["minLength", "maxLength", "pattern"]),
   ("file", ["minLength", "maxLength", "fileTypes"]),
   ("number", ["minimum", "maximum", "multipleOf"]),
   ("array", ["minItems", "maxItems", "uniqueItems", "items"]),
   ("object", ["minProperties", "maxProperties", "additionalProperties", "properties", "discriminator"])]

/-- The facet belongs to some type. -/
def Specific (f : String) : Prop := ∃ t ∈ facetsOf, f ∈ t.2

/-- A type with facets `own` can be meant by a declaration with the facets `l`. -/
def Fits (own l : List String) : Prop := ∀ f ∈ l, Specific f → f ∈ own

/-- The inferred type: the first of string, file, number, array and object that fits. -/
inductive Infers : List (String × List String) → List String → String → Prop
  | here {t own rest l} : Fits own l → Infers ((t, own) :: rest) l t
  | later {t own rest l r} : ¬ Fits own l → Infers rest l r → Infers ((t, own) :: rest) l r

/-- A facet list in a YAML mapping: alternating keys and values. -/
def alternate {α : Type} : List (α × α) → List α
  | [] => []
  | (k, v) :: rest => k :: v :: alternate rest

end GoRaml.Spec
