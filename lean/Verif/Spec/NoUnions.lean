import Verif.Model.Heap

/-!
# Specification: models without unions and without custom facets (C79)
-/

namespace GoRaml.Spec

open GoRaml

/-- No type is a union (`A | B`, or `A?`). -/
def NoUnions (s : St) : Prop := ∀ a b l e, s.base a = some b → b.shape ≠ some (.union l e)

/-- No type declares custom facets. -/
def NoCustomFacets (s : St) : Prop := ∀ a b, s.base a = some b → s.props b.facetDefs = []

end GoRaml.Spec
