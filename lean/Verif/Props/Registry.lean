import Verif.Spec.Registry
import Verif.Lemmas.OMap
import Mathlib.Data.List.Induction

/-!
# C37: the registries
-/

namespace GoRaml

open Spec

/-- The effect of a registration. -/
def Spec.RegOp.run : RegOp → St → St
  | .fragment l f, h => (putFragment l f h).2
  | .type n l a, h => { h with fragTypes := putTypeInto h.fragTypes n l a }
  | .annotationType n l a, h => { h with fragAnnotationTypes := putTypeInto h.fragAnnotationTypes n l a }

/-- The state after a history of registrations on a fresh RAML value. -/
def registered (ops : List RegOp) : St := ops.foldl (fun h o => o.run h) {}

theorem putTypeInto_get (m : OMap (OMap Addr)) (n l : String) (a : Addr) (loc : String) :
    OMap.get (putTypeInto m n l a) loc =
      if loc = l then some (OMap.set ((OMap.get m l).getD []) n a) else OMap.get m loc := by
  unfold putTypeInto
  rw [OMap.get_set]

theorem run_fragments (o : RegOp) (h : St) (loc : String) :
    OMap.get (o.run h).fragments loc = (OMap.get h.fragments loc).or (o.fragmentAt loc) := by
  cases o with
  | fragment l f =>
    simp only [RegOp.run, RegOp.fragmentAt, putFragment]
    cases hg : OMap.get h.fragments l with
    | some g =>
      by_cases hl : l = loc
      · subst hl; simp [hg]
      · simp [hl]
    | none =>
      simp only [OMap.get_set]
      by_cases hl : loc = l
      · subst hl; simp [hg]
      · rw [if_neg hl, if_neg (Ne.symm hl)]; simp
  | type n l a => simp [RegOp.run, RegOp.fragmentAt]
  | annotationType n l a => simp [RegOp.run, RegOp.fragmentAt]

/-- C37: looking up a location yields the first fragment registered there, nil if there is none. -/
theorem c37_first_fragment (ops : List RegOp) (loc : String) : getFragment (registered ops) loc = firstFragment ops loc := by
  unfold getFragment registered firstFragment
  induction ops using List.reverseRecOn with
  | nil => rfl
  | append_singleton ops o ih =>
    rw [List.foldl_append, List.foldl_cons, List.foldl_nil, run_fragments, ih, List.findSome?_append]
    congr 1
    simp

open scoped Classical in
/-- What a registry of types should hold: an error if no type was stored for the location, else the last type stored. -/
def typesMatch (m : OMap (OMap Addr)) (last : String → String → Option Addr) : Prop :=
  ∀ loc name, getTypeFrom m loc name = if ∃ n, (last loc n).isSome then .ok (last loc name) else .err "location not found"

open scoped Classical in
theorem typesMatch_put {m : OMap (OMap Addr)} {last : String → String → Option Addr} (h : typesMatch m last) (n l : String) (a : Addr) :
    typesMatch (putTypeInto m n l a) (fun loc name => if l = loc ∧ n = name then some a else last loc name) := by
  intro loc name
  unfold getTypeFrom
  rw [putTypeInto_get]
  by_cases hl : loc = l
  · subst hl
    rw [if_pos rfl, if_pos ⟨n, by simp⟩]
    simp only
    rw [OMap.get_set]
    by_cases hn : name = n
    · subst hn; simp
    · rw [if_neg hn, if_neg (fun h => hn h.2.symm)]
      have := h loc name
      unfold getTypeFrom at this
      cases hg : OMap.get m loc with
      | none =>
        rw [hg] at this
        simp only at this
        split at this
        · cases this
        · rename_i hne
          have : last loc name = none := by
            by_contra hc
            exact hne ⟨name, Option.ne_none_iff_isSome.1 hc⟩
          rw [this]; rfl
      | some t =>
        rw [hg] at this
        simp only at this
        split at this
        · simpa using this
        · cases this
  · rw [if_neg hl]
    have := h loc name
    unfold getTypeFrom at this
    rw [this]
    simp only [Ne.symm hl, false_and, if_false]

open scoped Classical in
/-- C37: looking up a type yields the last type stored for that location and name, nil if there is none; it fails iff no type at
all was stored for the location. -/
theorem c37_last_type (ops : List RegOp) (loc name : String) :
    getTypeFrom (registered ops).fragTypes loc name =
      if ∃ n, (lastType ops loc n).isSome then .ok (lastType ops loc name) else .err "location not found" := by
  revert loc name
  show typesMatch (registered ops).fragTypes (lastType ops)
  unfold registered
  induction ops using List.reverseRecOn with
  | nil => intro loc name; simp [getTypeFrom, OMap.get, lastType]
  | append_singleton ops o ih =>
    rw [List.foldl_append, List.foldl_cons, List.foldl_nil]
    have hl : lastType (ops ++ [o]) = fun loc name => (o.typeAt loc name).or (lastType ops loc name) := by
      funext loc name
      unfold lastType
      rw [List.reverse_append, List.reverse_singleton, List.singleton_append, List.findSome?_cons]
      cases RegOp.typeAt loc name o <;> rfl
    rw [hl]
    cases o with
    | fragment l f =>
      have : (RegOp.run (.fragment l f) (List.foldl (fun h o => o.run h) {} ops)).fragTypes = (List.foldl (fun h o => RegOp.run o h) {} ops).fragTypes := by
        simp only [RegOp.run, putFragment]
        split <;> rfl
      rw [this]
      simpa [RegOp.typeAt] using ih
    | type n l a =>
      have := typesMatch_put ih n l a
      refine Eq.mp (congrArg (typesMatch _) ?_) this
      funext loc name
      show _ = (if l = loc ∧ n = name then some a else none).or _
      split <;> rfl
    | annotationType n l a => simpa [RegOp.typeAt, RegOp.run] using ih

open scoped Classical in
/-- C37: the same for annotation types. -/
theorem c37_last_annotation_type (ops : List RegOp) (loc name : String) :
    getTypeFrom (registered ops).fragAnnotationTypes loc name =
      if ∃ n, (lastAnnotationType ops loc n).isSome then .ok (lastAnnotationType ops loc name) else .err "location not found" := by
  revert loc name
  show typesMatch (registered ops).fragAnnotationTypes (lastAnnotationType ops)
  unfold registered
  induction ops using List.reverseRecOn with
  | nil => intro loc name; simp [getTypeFrom, OMap.get, lastAnnotationType]
  | append_singleton ops o ih =>
    rw [List.foldl_append, List.foldl_cons, List.foldl_nil]
    have hl : lastAnnotationType (ops ++ [o]) = fun loc name => (o.annotationTypeAt loc name).or (lastAnnotationType ops loc name) := by
      funext loc name
      unfold lastAnnotationType
      rw [List.reverse_append, List.reverse_singleton, List.singleton_append, List.findSome?_cons]
      cases RegOp.annotationTypeAt loc name o <;> rfl
    rw [hl]
    cases o with
    | fragment l f =>
      have : (RegOp.run (.fragment l f) (List.foldl (fun h o => o.run h) {} ops)).fragAnnotationTypes = (List.foldl (fun h o => RegOp.run o h) {} ops).fragAnnotationTypes := by
        simp only [RegOp.run, putFragment]
        split <;> rfl
      rw [this]
      simpa [RegOp.annotationTypeAt] using ih
    | annotationType n l a =>
      have := typesMatch_put ih n l a
      refine Eq.mp (congrArg (typesMatch _) ?_) this
      funext loc name
      show _ = (if l = loc ∧ n = name then some a else none).or _
      split <;> rfl
    | type n l a => simpa [RegOp.annotationTypeAt, RegOp.run] using ih

/-- Example: a second fragment for a location is ignored, a second type of a name replaces the first. -/
def exRegOps : List RegOp :=
  [.fragment "a" (.library 0), .type "T" "a" 1, .type "U" "a" 2, .fragment "a" (.dataType 3), .type "T" "a" 5, .type "T" "b" 6]

example : getFragment (registered exRegOps) "a" = some (.library 0) :=
  (c37_first_fragment exRegOps "a").trans (by decide +kernel)

example : lastType exRegOps "a" "T" = some 5 ∧ lastType exRegOps "a" "U" = some 2 ∧ lastType exRegOps "b" "T" = some 6 := by
  decide +kernel

end GoRaml
