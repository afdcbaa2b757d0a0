import Verif.Spec.Check
import Verif.Spec.Inherit

/-!
# Specification: models without inheritance (C77)
-/

namespace GoRaml.Spec

open GoRaml

/-- No type is built on another one.
* No type has parents, and none is an included fragment with facets of its own.
* No type declares custom facets.
* An alias (a reference without facets) has the kind of the type it refers to, and no parts of its own. -/
structure NoInheritance (s : St) : Prop where
  parents : ∀ a b, s.base a = some b → b.link = none ∧ s.slice b.inherits = []
  facets : ∀ a b, s.base a = some b → s.props b.facetDefs = []
  aliases : ∀ a b t, s.base a = some b → b.alias = some t → (∃ q u, b.shape = some q ∧ s.shapeAt t = some u ∧ Kind q = Kind u) ∧ ∀ y, ¬ Refers s a y

/-- The types of all annotations in use are declared as annotation types of libraries that the model knows. -/
def AnnotationTypesDeclared (s : St) : Prop :=
  ∀ d ∈ s.domainExts, ∀ a, d.definedBy = some a → ∃ k i l e, (k, FragRef.library i) ∈ s.fragments ∧ s.libs[i]? = some l ∧ e ∈ l.annotationTypes ∧ e.2 = a

end GoRaml.Spec
