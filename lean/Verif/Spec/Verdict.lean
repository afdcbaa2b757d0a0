import Verif.Spec.ValidateAll
import Verif.Model.ValidateAll
import Verif.Model.Node

/-!
# When a whole model is valid, unwrapped or not (C44)

Inheritance has to be worked out before a type can be judged.  A type that is not unwrapped yet is therefore judged by a copy of it,
made and unwrapped in the model as it is, with nothing else done to the model.
-/

namespace GoRaml.Spec

open GoRaml

/-- `u`, in `s'`, is the type `a` of `s` made ready to be judged: `a` itself if it is unwrapped, otherwise what `CloneDetached`,
`UnwrapShape` and `FindAndMarkRecursion` make of it. -/
def Readied (s : St) (a u : Addr) (s' : St) : Prop :=
  ∃ b, s.base a = some b ∧
    ((b.unwrapped = true ∧ u = a ∧ s' = s) ∨
     (b.unwrapped = false ∧ ∃ n c s₁ s₂ r, cloneDetached n a s = (.ok c, s₁) ∧ unwrap n c s₁ = (.ok u, s₂) ∧ mark n u s₂ = (.ok r, s')))

/-- A type can be unwrapped, and its definition is right. -/
def TypeFine (E : Ext) (s : St) (a : Addr) : Prop := ∃ u s', Readied s a u s' ∧ TypeOK E s' u

/-- The type can be unwrapped, and the value belongs to it. -/
def ValueFine (E : Ext) (s : St) (a : Addr) (v : GoVal) : Prop := ∃ u s', Readied s a u s' ∧ Valid E s' u v

/-- Every type the model declares is right, and the value of every annotation belongs to its annotation type. -/
def ModelFine (E : Ext) (s : St) : Prop :=
  (∀ a, DeclaredType s a → TypeFine E s a) ∧ ∀ d ∈ s.domainExts, ∃ a, d.definedBy = some a ∧ ValueFine E s a d.value

/-- The types of all annotations in use are among the annotation types that the model declares. -/
def AnnotationsDeclared (s : St) : Prop := ∀ d ∈ s.domainExts, ∀ a, d.definedBy = some a → DeclaredType s a

/-- The values in a model are Go values as they occur at run time. -/
structure RuntimeModel (s : St) : Prop where
  types : RuntimeValues s
  facets : ∀ m ∈ s.fmaps, ∀ e ∈ m, GoValue e.2
  discriminators : RuntimeDiscriminators s
  annotations : ∀ d ∈ s.domainExts, GoValue d.value

/-- What the outcome of a validation says about `P`: without an error it holds, with one it does not; and panics are only those of `X`. -/
def Reports (P : Prop) (X : String → Prop) (o : Out Unit) : Prop :=
  (o = .ok () → P) ∧ (∀ e, o = .err e → ¬ P) ∧ ∀ e, o = .panic e → X e

/-- The YAML and JSON decoders give Go values. -/
structure RuntimeEnv (E : Env) : Prop where
  yaml : ∀ n v, E.decodeAny n = some v → GoValue v
  first : ∀ t v, E.jsonFirst t = some v → GoValue v
  json : ∀ t v, E.jsonDecode t = some v → GoValue v

/-- `t` is what `s` becomes by any number of calls of `ValidateShapes` that returned. -/
inductive Validated (s : St) : St → Prop where
  | start : Validated s s
  | again {t t' : St} {E : Ext} {ord : OMap Property → OMap Property} {frags : List FragRef} {k : Nat} {o : Out Unit} : Validated s t → (∀ l, (ord l).Perm l) →
      frags.Perm (s.fragments.map (·.2)) → validateShapes E ord frags k t = (o, t') → (o = .ok () ∨ ∃ e, o = .err e) → Validated s t'

/-- `t` has the fragments, libraries and annotations of `s`, and all its types, property maps, member lists and facet maps, each in its place. -/
structure SameModel (s t : St) : Prop where
  fragments : t.fragments = s.fragments
  libs : t.libs = s.libs
  annotations : t.domainExts = s.domainExts
  dataTypes : s.dts <+: t.dts
  types : s.bases <+: t.bases
  props : s.pmaps <+: t.pmaps
  patProps : s.ppmaps <+: t.ppmaps
  lists : s.slices <+: t.slices
  facets : s.fmaps <+: t.fmaps

end GoRaml.Spec
