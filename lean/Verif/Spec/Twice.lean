import Verif.Spec.UnwrapAll

/-!
# Specification of unwrapping a model again (C85)
-/

namespace GoRaml.Spec

open GoRaml

/-- All types of the first model, with everything in them, its fragments and what they declare are in the second as they were; new types may have been added. -/
structure StillSame (h h' : St) : Prop where
  types : h.bases <+: h'.bases
  properties : h.pmaps <+: h'.pmaps
  patternProperties : h.ppmaps <+: h'.ppmaps
  lists : h.slices <+: h'.slices
  facets : h.fmaps <+: h'.fmaps
  dataTypes : h'.dts = h.dts
  libraries : h'.libs = h.libs
  fragments : h'.fragments = h.fragments
  annotations : h'.domainExts.map (fun d => (d.name, d.value, d.location)) = h.domainExts.map (fun d => (d.name, d.value, d.location))

/-- Every annotation has its type, and the file of that type declares annotation types. -/
def AnnotationsHome (h : St) : Prop :=
  ∀ d ∈ h.domainExts, ∃ a b k i l, d.definedBy = some a ∧ h.base a = some b ∧ (k, FragRef.library i) ∈ h.fragments ∧ h.libs[i]? = some l ∧ l.location = b.location ∧ l.annotationTypes ≠ []

end GoRaml.Spec
