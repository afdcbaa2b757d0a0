import Verif.Spec.Ancestry

/-!
# What declared names lead to after unwrapping (C82)
-/

namespace GoRaml.Spec

open GoRaml

/-- `b'` says of itself what `b` says: besides facets and parts, which are merged with those of parents, everything a type declaration can have; a description only if `b` has one. -/
structure SaysTheSame (b b' : Base) : Prop where
  name : b'.name = b.name
  displayName : b'.displayName = b.displayName
  description : ∀ d, b.description = some d → b'.description = some d
  type : b'.type = b.type
  «example» : b'.example_ = b.example_
  examples : b'.examples = b.examples
  default : b'.default = b.default
  required : b'.required = b.required
  annotations : b'.domainProps = b.domainProps
  location : b'.location = b.location

/-- In the model `s`, `r` is the type `a` itself, or an ancestor of it that allows every value. -/
def StandsFor (s : St) (r a : Addr) : Prop := r = a ∨ (AncestorOf s r a ∧ s.shapeAt r = some .any)

end GoRaml.Spec
