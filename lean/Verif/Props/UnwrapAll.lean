import Verif.Lemmas.WholeEnds
import Verif.Props.Load

/-!
# Unwrapping a whole model after parsing (C61, C62)

`frags` and `frags'` are the orders in which `UnwrapShapes` visits the fragments, in its two passes.
-/

namespace GoRaml.Props

open GoRaml GoRaml.Spec

/-- No condition on values. -/
def anyValues : Whole.Par where
  V _ := True
  C _ := True
  X := Uncomparable
  nil := trivial
  cmp := .inr fun _ h => h

instance : anyValues.Rec := ⟨trivial⟩

/-- Enums hold scalars only. -/
def scalarEnums : Whole.Par where
  V _ := True
  C v := v.isScalarVal = true
  X _ := False
  nil := trivial
  cmp := .inl fun _ h => h

instance : scalarEnums.Rec := ⟨trivial⟩

section
variable (E : Env) (n m : Nat) (path : String) (f : FragRef) (s : St)

theorem parsed_loaded (h : parseFromPath E n m path {} = (.ok f, s)) : Load.Loaded E s :=
  (Load.parseFromPath_ok (K := Load.anyCtl) trivial (Load.anyRegs E) (fun _ _ => trivial) (fun _ _ _ => trivial) trivial h).1

theorem perm_fragments {s : St} {frags : List FragRef} (hf : frags.Perm (s.fragments.map (·.2))) : ∀ x ∈ frags, ∃ k, (k, x) ∈ s.fragments := fun x hx => by
  obtain ⟨e, he, rfl⟩ := List.mem_map.1 (hf.mem_iff.1 hx)
  exact ⟨e.1, he⟩

theorem fine_any {sh : Shape} (hs : ∀ f, sh ≠ .unknown f) : Whole.ShapeFine anyValues sh := by
  cases sh <;> first | exact fun _ _ _ _ => trivial | trivial | exact absurd rfl (hs _)

theorem fine_scalar {s : St} (he : ScalarEnums s) (a : Addr) (sh : Shape) (ha : s.shapeAt a = some sh) (hs : ∀ f, sh ≠ .unknown f) :
    Whole.ShapeFine scalarEnums sh := by
  have key : ∀ es, EnumOf sh = some es → ∀ v ∈ es, v.isScalarVal = true := fun es h1 v hv => by
    obtain ⟨h2, h3⟩ := he a sh ha es h1 v hv
    cases v <;> first | rfl | exact absurd rfl (h2 _) | exact absurd rfl (h3 _)
  cases sh <;> first | exact key | trivial | exact absurd rfl (hs _)

end

section
variable (E : Env) (s : St) (hl : Load.Loaded E s) (k : Nat) {frags frags' : List FragRef}
  (hf : frags.Perm (s.fragments.map (·.2))) (hf' : frags'.Perm (s.fragments.map (·.2)))

include hl hf hf'

/-- `UnwrapShapes` panics in no other way than by comparing two lists or two maps. -/
theorem loaded_panics {e : String} (hr : (unwrapShapes k frags frags' s).1 = .panic e) : Uncomparable e := by
  have r := Whole.loaded_unwrap (K := anyValues) hl (fun _ _ _ h => fine_any h) (fun _ _ _ => ⟨fun _ _ => trivial, fun _ _ _ _ _ _ => trivial, fun _ _ => trivial⟩)
    (fun _ _ _ _ => trivial) k (perm_fragments hf) (perm_fragments hf')
  rw [Whole.unwrapShapes_cleared] at hr
  have := r.2.2
  unfold Whole.Outcome at this
  rw [hr] at this
  exact this

/-- If the enums hold no lists and no maps, it does not panic at all. -/
theorem loaded_no_panic (he : ScalarEnums s) (e : String) : (unwrapShapes k frags frags' s).1 ≠ .panic e := by
  intro hr
  have r := Whole.loaded_unwrap (K := scalarEnums) hl (fine_scalar he) (fun _ _ _ => ⟨fun _ _ => trivial, fun _ _ _ _ _ _ => trivial, fun _ _ => trivial⟩)
    (fun _ _ _ _ => trivial) k (perm_fragments hf) (perm_fragments hf')
  rw [Whole.unwrapShapes_cleared] at hr
  have := r.2.2
  unfold Whole.Outcome at this
  rw [hr] at this
  exact this

/-- Whether it succeeds or fails, the model has no holes afterwards, declares the same names in the same order, and has the same annotations. -/
theorem loaded_model_kept : WholeModel (unwrapShapes k frags frags' s).2 ∧ SameOutline s (unwrapShapes k frags frags' s).2 := by
  have r := Whole.loaded_unwrap (K := anyValues) hl (fun _ _ _ h => fine_any h) (fun _ _ _ => ⟨fun _ _ => trivial, fun _ _ _ _ _ _ => trivial, fun _ _ => trivial⟩)
    (fun _ _ _ _ => trivial) k (perm_fragments hf) (perm_fragments hf')
  rw [Whole.unwrapShapes_cleared]
  refine ⟨r.1.whole fun e he => ?_, ⟨r.2.1.fragments, r.2.1.libs, r.2.1.dts, r.2.1.exts⟩⟩
  rw [r.2.1.fragments] at he
  have := Whole.loaded_there hl (fs := [e.2]) (fun f hf => ⟨e.1, by rw [List.mem_singleton.1 hf]; exact he⟩) e.2 (by simp)
  have g := r.2.1.longer
  cases hx : e.2 with
  | library i => rw [hx] at this; exact Nat.lt_of_lt_of_le this g.libs
  | dataType i => rw [hx] at this; exact Nat.lt_of_lt_of_le this g.dts
  | namedExample i => trivial

/-- After a successful `UnwrapShapes` every declared type is unwrapped; and unless it is left marked as visited, no chain of its components is
infinite and all its components are unwrapped.  The types that annotations are linked to are unwrapped too. -/
theorem loaded_after_unwrap {s' : St} (hr : unwrapShapes k frags frags' s = (.ok (), s')) :
    AllUnwrapped s' ∧ ∀ a, DeclaredType s' a → ¬ LeftVisited s' a → NoInfiniteComponents s' a ∧ FullyUnwrapped s' a := by
  have hw := Whole.loaded_wf (K := anyValues) hl (fun _ _ _ h => fine_any h) (fun _ _ _ => ⟨fun _ _ => trivial, fun _ _ _ _ _ _ => trivial, fun _ _ => trivial⟩)
    (fun _ _ _ _ => trivial)
  have r := Whole.unwrapShapes_end hw (Whole.loaded_there hl (perm_fragments hf)) (Whole.loaded_there hl (perm_fragments hf'))
    (fun e he => hf'.mem_iff.2 (List.mem_map_of_mem he)) (Whole.loaded_exts hl) hr
  refine ⟨⟨fun a b ha hb => ?_, fun d hd a b ha hb => ?_⟩, fun a ha hv => (r.declared a ha).2.resolve_left hv⟩
  · obtain ⟨b', h1, h2⟩ := (r.declared a ha).1
    rw [hb] at h1; cases h1
    exact h2
  · obtain ⟨b', h1, h2⟩ := r.annotations d hd a ha
    rw [hb] at h1; cases h1
    exact h2

end

section
variable (E : Env) (n m : Nat) (path : String) (f : FragRef) (s : St) (h : parseFromPath E n m path {} = (.ok f, s)) (k : Nat) {frags frags' : List FragRef}
  (hf : frags.Perm (s.fragments.map (·.2))) (hf' : frags'.Perm (s.fragments.map (·.2)))

include h hf hf'

/-- C61: on a parsed model `UnwrapShapes` panics in no other way than by comparing two lists or two maps. -/
theorem c61_panics {e : String} (hr : (unwrapShapes k frags frags' s).1 = .panic e) : Uncomparable e := loaded_panics E s (parsed_loaded E n m path f s h) k hf hf' hr

/-- C61: if the enums hold no lists and no maps, it does not panic at all. -/
theorem c61_no_panic (he : ScalarEnums s) (e : String) : (unwrapShapes k frags frags' s).1 ≠ .panic e := loaded_no_panic E s (parsed_loaded E n m path f s h) k hf hf' he e

/-- C61: whether it succeeds or fails, the model has no holes afterwards, declares the same names in the same order, and has the same annotations. -/
theorem c61_model_kept : WholeModel (unwrapShapes k frags frags' s).2 ∧ SameOutline s (unwrapShapes k frags frags' s).2 :=
  loaded_model_kept E s (parsed_loaded E n m path f s h) k hf hf'

/-- C62: after a successful `UnwrapShapes` every declared type is unwrapped; and unless it is left marked as visited, no chain of its components is
infinite and all its components are unwrapped.  The types that annotations are linked to are unwrapped too. -/
theorem c62_after_unwrap {s' : St} (hr : unwrapShapes k frags frags' s = (.ok (), s')) :
    AllUnwrapped s' ∧ ∀ a, DeclaredType s' a → ¬ LeftVisited s' a → NoInfiniteComponents s' a ∧ FullyUnwrapped s' a :=
  loaded_after_unwrap E s (parsed_loaded E n m path f s h) k hf hf' hr

end

/-- Two libraries and two data types with annotations, as in C57, unwrapped: recursion is marked. -/
def exUnwrapAll : List (String × String × YNode) := [
  ("a.raml", "#%RAML 1.0 Library\na", exDoc [
    ("annotationTypes", exMap [("note", .str "string")]),
    ("types", exMap [
      ("Node", exMap [("properties", exMap [("next?", .str "Node"), ("value", .str "Level")]), ("(note)", .str "x")]),
      ("Level", exMap [("type", .str "string"), ("enum", .mk .sequence "!!seq" "" [.str "low", .str "high"])]),
      ("Low", exMap [("type", .str "Level"), ("enum", .mk .sequence "!!seq" "" [.str "low"])])])])]

/-- The enums of all types, for examples. -/
def exEnums (s : St) : List (List GoVal) := s.bases.filterMap fun b => b.shape.bind EnumOf

/-- Neither a list nor a map. -/
def exIsScalar : GoVal → Bool
  | .arr _ => false
  | .map _ => false
  | _ => true

theorem exEnums_scalar {s : St} (h : (exEnums s).all (·.all exIsScalar) = true) : ScalarEnums s := by
  intro a sh ha es he v hv
  obtain ⟨b, hb, hbs⟩ := base_of_shape ha
  have hm : es ∈ exEnums s := List.mem_filterMap.2 ⟨b, List.mem_of_getElem? hb, by rw [hbs]; exact he⟩
  have := List.all_eq_true.1 (List.all_eq_true.1 h es hm) v hv
  refine ⟨fun l e => ?_, fun l e => ?_⟩ <;> (rw [e] at this; cases this)

/-- The hypotheses of C61 and C62 are met, with recursion and inherited enums; the recursion is marked, and no declared type is left visited. -/
example :
    let r := parseFromPath (exFilesEnv exUnwrapAll) 20 20 "a.raml" {}
    let u := unwrapShapes 20 (r.2.fragments.map (·.2)) (r.2.fragments.map (·.2)) r.2
    exResult r = some (.library 0) ∧ ScalarEnums r.2 ∧ exEnums r.2 ≠ [] ∧ u.1 = .ok () ∧
      u.2.libs.map (fun l => (l.location, l.annotationTypes.map (·.1))) = [("a.raml", ["note"])] ∧
      u.2.libs.map (·.types) = [[("Node", 1), ("Level", 4), ("Low", 5)]] ∧
      u.2.bases.map (fun b => (b.name, b.type, b.unwrapped, b.visited)) =
        [("note", "string", true, false), ("Node", "object", true, false), ("next?", "object", true, false), ("value", "string", true, false),
         ("Level", "string", true, false), ("Low", "string", true, false), ("next?", "recursive", true, false)] :=
  ⟨by decide +kernel, exEnums_scalar (by decide +kernel), by decide +kernel, by decide +kernel, by decide +kernel, by decide +kernel, by decide +kernel⟩

/-! ## Lists in enums -/

/-- A type and its parent with a list in their enums. -/
def exLists : List (String × String × YNode) := [
  ("a.raml", "#%RAML 1.0 Library\na", exDoc [
    ("types", exMap [
      ("P", exMap [("type", .str "string"), ("enum", .mk .sequence "!!seq" "" [.mk .sequence "!!seq" "" []])]),
      ("T", exMap [("type", .str "P"), ("enum", .mk .sequence "!!seq" "" [.mk .sequence "!!seq" "" []])])])])]

/-- Files in which YAML sequences decode to lists. -/
def exListsEnv : Env := { exFilesEnv exLists with decodeAny := fun n => some (if n.tag = "!!seq" then .arr [] else .str n.value) }

/-- C61, the exception: a document whose enums list a list parses, but unwrapping it panics. -/
theorem c61_list_enum_panics : exResult (parseFromPath exListsEnv 20 20 "a.raml" {}) = some (.library 0) ∧
    (parseWith exListsEnv {} 20 20 "a.raml" { withUnwrap := true } {}).1 = .panic "comparing uncomparable type []interface {}" :=
  ⟨by decide +kernel, by decide +kernel⟩

/-! ## Annotations that lose their type -/

/-- Two annotation types with a common parent of type `any`, and an annotation. -/
def exLost : List (String × String × YNode) := [
  ("a.raml", "#%RAML 1.0 Library\na", exDoc [
    ("annotationTypes", exMap [
      ("B1", exMap [("type", .str "P"), ("description", .str "x")]),
      ("B2", exMap [("type", .str "P"), ("description", .str "x")])]),
    ("types", exMap [("P", .str "any"), ("T", exMap [("type", .str "string"), ("(B2)", .str "v")])])])]

/-- C62, a flaw: unwrapping can take away the type of an annotation.  The document parses, with either option alone too; with both, `ValidateShapes`
panics. -/
theorem c62_annotation_type_lost :
    (parseWith (exFilesEnv exLost) {} 20 20 "a.raml" { withUnwrap := true } {}).1 = .ok (.library 0) ∧
    (parseWith (exFilesEnv exLost) {} 20 20 "a.raml" { withValidate := true } {}).1 = .ok (.library 0) ∧
    (parseWith (exFilesEnv exLost) {} 20 20 "a.raml" {} {}).2.domainExts.map (fun d => (d.name, d.definedBy.isSome)) = [("B2", true)] ∧
    (parseWith (exFilesEnv exLost) {} 20 20 "a.raml" { withUnwrap := true } {}).2.domainExts.map (fun d => (d.name, d.definedBy)) = [("B2", none)] ∧
    (parseWith (exFilesEnv exLost) {} 20 20 "a.raml" { withUnwrap := true, withValidate := true } {}).1 = .panic "nil pointer dereference" :=
  ⟨by decide +kernel, by decide +kernel, by decide +kernel, by decide +kernel, by decide +kernel⟩

/-! ## Types left visited -/

/-- A recursive object type with an object and a union as parents, and a type that inherits from it. -/
def exLeft : List (String × String × YNode) := [
  ("a.raml", "#%RAML 1.0 Library\na", exDoc [
    ("types", exMap [
      ("P", exMap [("type", .mk .sequence "!!seq" "" [.str "O", .str "U"]), ("properties", exMap [("x?", .str "P")])]),
      ("D", exMap [("type", .str "P"), ("properties", exMap [("a", .str "integer")])]),
      ("U", .str "A | B"),
      ("O", .str "object"),
      ("A", exMap [("properties", exMap [("a", .str "string")])]),
      ("B", exMap [("properties", exMap [("b", .str "string")])])])])]

/-- The model after parsing and unwrapping. -/
def exLeftUnwrapped : St := (parseWith (exFilesEnv exLeft) {} 40 40 "a.raml" { withUnwrap := true } {}).2

/-- `Check` never returns. -/
def Stuck (E : Ext) (h : St) (a : Addr) : Prop := ∀ n, check E h n a = .diverge

/-- What the components of a type without bounds and pattern properties begin with. -/
def firstOf (h : St) (a : Addr) : Option Addr :=
  match h.shapeAt a with
  | some (.object f) => if f.minProperties.isNone && f.patternProperties.isNone then ((h.props f.properties).head?).map (·.2.base) else none
  | some (.union l _) => (h.slice l).head?
  | _ => none

theorem check_first {E : Ext} {h : St} {a x : Addr} {n : Nat} (hf : firstOf h a = some x) (hx : check E h n x = .diverge) : check E h (n + 1) a = .diverge := by
  unfold firstOf at hf
  unfold check
  cases hs : h.shapeAt a with
  | none => rw [hs] at hf; cases hf
  | some sh =>
    rw [hs] at hf
    cases sh with
    | object f =>
      simp only at hf
      split at hf
      · rename_i hc
        simp only [Bool.and_eq_true, Option.isNone_iff_eq_none] at hc
        simp only [checkShape, objectCheck, boundsCrossed, hc.1, checkPatternProperties, hc.2, Out.bind, checkProperties]
        cases hp : f.properties with
        | none => rw [hp] at hf; cases hf
        | some i =>
          rw [hp] at hf
          cases hl : h.props (some i) with
          | nil => rw [hl] at hf; cases hf
          | cons e l =>
            rw [hl] at hf
            cases hf
            simp [hl, Out.forEach, hx, Out.bind]
      · cases hf
    | union l e =>
      simp only at hf
      cases hl : h.slice l with
      | nil => rw [hl] at hf; cases hf
      | cons y l =>
        rw [hl] at hf
        cases hf
        simp [checkShape, hl, Out.forEach, hx, Out.bind]
    | _ => cases hf

theorem stuck_self {E : Ext} {h : St} {a : Addr} (hf : firstOf h a = some a) : Stuck E h a := by
  intro n
  induction n with
  | zero => rfl
  | succ n ih => exact check_first hf ih

theorem stuck_first {E : Ext} {h : St} {a x : Addr} (hf : firstOf h a = some x) (hx : Stuck E h x) : Stuck E h a := by
  intro n
  cases n with
  | zero => rfl
  | succ n => exact check_first hf (hx n)

theorem validateShapes_stuck {E : Ext} {ord : OMap Property → OMap Property} {h : St} {l : Lib} {k : String} {a : Addr} {ts : OMap Addr} {b : Base}
    (hl : h.libs[0]? = some l) (ha : l.annotationTypes = []) (ht : l.types = (k, a) :: ts) (hb : h.base a = some b) (hu : b.unwrapped = true)
    (hs : Stuck E h a) (n : Nat) : (validateShapes E ord [.library 0] n h).1 = .diverge := by
  have hc : unwrapCopy n a ⟨h, []⟩ = (.ok a, ⟨h, []⟩) := by
    simp [unwrapCopy, M.bind, onSt, Heap.getBase, hb, hu, M.ret]
  have h1 : validateType E ord n a ⟨h, []⟩ = (.diverge, ⟨h, []⟩) := by
    simp [validateType, M.bind, hc, M.get, M.lift, hs n]
  simp [validateShapes, M.tryBoth, M.tryEach, M.bind, M.attempt, validateFragments, validateFragment, hl, validateLibrary, validateTypes, ha, ht, h1, M.ret]

theorem first_component {h : St} {a x : Addr} (hf : firstOf h a = some x) : Component h a x := by
  unfold firstOf at hf
  cases hs : h.shapeAt a with
  | none => rw [hs] at hf; cases hf
  | some sh =>
    obtain ⟨b, hb, hbs⟩ := base_of_shape hs
    rw [hs] at hf
    refine ⟨b, hb, .inl ⟨sh, hbs, ?_⟩⟩
    cases sh with
    | object f =>
      simp only at hf
      split at hf
      · obtain ⟨e, h1, rfl⟩ := Option.map_eq_some_iff.1 hf
        exact .property (List.mem_of_mem_head? h1)
      · cases hf
    | union l e => exact .member (List.mem_of_mem_head? hf)
    | _ => cases hf

theorem first_infinite {h : St} {a x y : Addr} (h0 : firstOf h a = some x) (h1 : firstOf h x = some y) (h2 : firstOf h y = some y) : ¬ NoInfiniteComponents h a := by
  intro hn
  obtain ⟨n, hn⟩ := hn (fun n => match n with | 0 => a | 1 => x | _ => y) rfl
  refine hn ?_
  match n with
  | 0 => exact first_component h0
  | 1 => exact first_component h1
  | n + 2 => exact first_component h2

/-- C62, why visited types are excepted: here a document parses and unwraps without an error, but a declared type is left visited and has an infinite
chain of components, so that `ValidateShapes` does not return, however long it may run.  Validating the document without unwrapping it succeeds. -/
theorem c62_left_visited :
    (parseWith (exFilesEnv exLeft) {} 40 40 "a.raml" { withUnwrap := true } {}).1 = .ok (.library 0) ∧
    (∃ a, DeclaredType exLeftUnwrapped a ∧ LeftVisited exLeftUnwrapped a ∧ ¬ NoInfiniteComponents exLeftUnwrapped a) ∧
    (∀ n, (validateShapes exE id [.library 0] n exLeftUnwrapped).1 = .diverge) ∧
    (parseWith (exFilesEnv exLeft) {} 40 40 "a.raml" { withValidate := true } {}).1 = .ok (.library 0) := by
  have h0 : firstOf exLeftUnwrapped 0 = some 16 := by decide +kernel
  have h1 : firstOf exLeftUnwrapped 16 = some 22 := by decide +kernel
  have h2 : firstOf exLeftUnwrapped 22 = some 22 := by decide +kernel
  have hb : (exLeftUnwrapped.base 0).map (fun b => (b.unwrapped, b.visited)) = some (true, true) := by decide +kernel
  have hl : (exLeftUnwrapped.libs[0]?).map (fun l => (l.annotationTypes, l.types.head?)) = some ([], some ("P", 0)) := by decide +kernel
  have hf : exLeftUnwrapped.fragments = [("a.raml", .library 0)] := by decide +kernel
  refine ⟨by decide +kernel, ?_⟩
  suffices ∀ h : St, firstOf h 0 = some 16 → firstOf h 16 = some 22 → firstOf h 22 = some 22 → (h.base 0).map (fun b => (b.unwrapped, b.visited)) = some (true, true) →
      (h.libs[0]?).map (fun l => (l.annotationTypes, l.types.head?)) = some ([], some ("P", 0)) → h.fragments = [("a.raml", .library 0)] →
      (∃ a, DeclaredType h a ∧ LeftVisited h a ∧ ¬ NoInfiniteComponents h a) ∧ ∀ n, (validateShapes exE id [.library 0] n h).1 = .diverge by
    obtain ⟨p1, p2⟩ := this _ h0 h1 h2 hb hl hf
    exact ⟨p1, p2, by decide +kernel⟩
  clear h0 h1 h2 hb hl hf
  intro h h0 h1 h2 hb hl hf
  obtain ⟨b, hb1, hb2⟩ := Option.map_eq_some_iff.1 hb
  obtain ⟨l, hl1, hl2⟩ := Option.map_eq_some_iff.1 hl
  simp only [Prod.mk.injEq] at hb2 hl2
  obtain ⟨ts, ht⟩ : ∃ ts, l.types = ("P", 0) :: ts := by
    cases hx : l.types with
    | nil => rw [hx] at hl2; cases hl2.2
    | cons e ts => rw [hx] at hl2; exact ⟨ts, by simpa using hl2.2⟩
  refine ⟨⟨0, ?_, ⟨b, hb1, hb2.2⟩, first_infinite h0 h1 h2⟩, fun n => ?_⟩
  · exact .type (e := ("P", 0)) (k := "a.raml") (i := 0) (by rw [hf]; simp) hl1 (by rw [ht]; simp)
  · exact validateShapes_stuck hl1 hl2.1 ht hb1 hb2.1 (stuck_first h0 (stuck_first h1 (stuck_self h2))) n

end GoRaml.Props
