import Verif.Lemmas.Facets

/-!
# C31: the type inferred from facets
-/

namespace GoRaml.Props

open GoRaml Spec

/-- C31: for every list of facets, inference yields the first of string, file, number, array and object that has all the
type-specific facets given, and fails iff no type has all of them. -/
theorem c31_inferred_type (facets : List (YNode × YNode)) :
    (∀ t, identifyShapeType (alternate facets) = .ok t ↔ Infers facetsOf (facets.map fun p => p.1.value) t) ∧
    ((∃ e, identifyShapeType (alternate facets) = .err e) ↔
      ∀ t ∈ facetsOf, ¬ Fits t.2 (facets.map fun p => p.1.value)) := by
  obtain ⟨h1, h2⟩ := identify_infers facets
  refine ⟨h1, h2.trans ?_⟩
  constructor
  · intro h
    simp only [facetsOf, infers_cons, infers_nil] at h
    have h1 := h "string"; have h2 := h "file"; have h3 := h "number"; have h4 := h "array"; have h5 := h "object"
    intro t ht
    simp only [facetsOf, List.mem_cons, List.not_mem_nil, or_false] at ht
    rcases ht with rfl | rfl | rfl | rfl | rfl <;> simp_all
  · intro h t
    simp only [facetsOf, List.mem_cons, List.not_mem_nil, or_false, forall_eq_or_imp, forall_eq] at h
    simp only [facetsOf, infers_cons, infers_nil]
    simp_all

/-- C31: the order of the facets does not matter. -/
theorem c31_order_irrelevant {facets facets' : List (YNode × YNode)} (hp : facets.Perm facets') :
    (∀ t, identifyShapeType (alternate facets) = .ok t ↔ identifyShapeType (alternate facets') = .ok t) ∧
    ((∃ e, identifyShapeType (alternate facets) = .err e) ↔ ∃ e, identifyShapeType (alternate facets') = .err e) := by
  obtain ⟨h1, h2⟩ := c31_inferred_type facets
  obtain ⟨h1', h2'⟩ := c31_inferred_type facets'
  have hfit : ∀ own, Fits own (facets.map fun p => p.1.value) ↔ Fits own (facets'.map fun p => p.1.value) := by
    intro own
    have := hp.map fun p => p.1.value
    exact ⟨fun h f hf => h f (this.mem_iff.2 hf), fun h f hf => h f (this.mem_iff.1 hf)⟩
  have hinf : ∀ ts t, Infers ts (facets.map fun p => p.1.value) t ↔ Infers ts (facets'.map fun p => p.1.value) t := by
    intro ts t
    induction ts with
    | nil => simp [infers_nil]
    | cons a ts ih => obtain ⟨n, own⟩ := a; rw [infers_cons, infers_cons, hfit own, ih]
  exact ⟨fun t => by rw [h1, h1', hinf], by rw [h2, h2']; simp only [hfit]⟩

/-- C31: without type-specific facets the type is string. -/
theorem c31_default_string {facets : List (YNode × YNode)} (h : ∀ p ∈ facets, ¬ Specific p.1.value) :
    identifyShapeType (alternate facets) = .ok "string" := by
  refine ((c31_inferred_type facets).1 _).2 (.here fun f hf hs => ?_)
  obtain ⟨p, hp, rfl⟩ := List.mem_map.1 hf
  exact absurd hs (h p hp)

/-- Facet lists for the examples. -/
def exFacets (l : List String) : List (YNode × YNode) := l.map fun f => (.str f, .str "")

example : identifyShapeType (alternate (exFacets ["minLength", "enum", "fileTypes"])) = .ok "file" ∧
    identifyShapeType (alternate (exFacets ["fileTypes", "minLength", "enum"])) = .ok "file" ∧
    identifyShapeType (alternate (exFacets ["fileTypes", "pattern"])) = .err "detected types by facets are not equal" ∧
    identifyShapeType (alternate (exFacets ["properties", "minimum"])) = .err "detected types by facets are not equal" ∧
    identifyShapeType (alternate (exFacets ["format", "enum"])) = .ok "string" := by decide +kernel

end GoRaml.Props
