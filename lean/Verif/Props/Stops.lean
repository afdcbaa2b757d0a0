import Verif.Lemmas.StopsAll
import Verif.Props.Apart
import Verif.Props.Ends
import Verif.Props.Flat
import Verif.Spec.NoUnions

/-!
# Without unions and custom facets, unwrapping ends (C79)
-/

namespace GoRaml.Props

open GoRaml GoRaml.Spec

/-- The maps of facet definitions are empty and belong to no object. -/
def facetMaps (s : St) : Stops.Zone := ⟨fun i => ∃ a b, s.base a = some b ∧ b.facetDefs = some i, fun i => ∃ a b, s.base a = some b ∧ b.facetDefs = some i⟩

theorem stops_start {s : St} (hs : ShareNothing s) (hu : NoUnions s) (hc : NoCustomFacets s) : Stops.Inv (facetMaps s) s where
  plain := hu
  defs a b i hb hi := ⟨a, b, hb, hi⟩
  props a b f i hb hf hi := fun ⟨a', b', hb', hi'⟩ => by
    have := hs.maps _ _ _ (.properties hb hf hi) (.facets hb' hi')
    cases this
  none i := fun ⟨a, b, hb, hi⟩ => hi ▸ hc a b hb

/-- C79: if no parsed type is a union or declares custom facets, `UnwrapShapes` ends: it returns or panics, and more steps change nothing.  The types may inherit from each other and refer to
each other in any way; the lists of fragments may be any. -/
theorem c79_ends (E : Env) (n m : Nat) (path : String) (hu : NoUnions (parseFromPath E n m path {}).2) (hc : NoCustomFacets (parseFromPath E n m path {}).2) (frags frags' : List FragRef) :
    ∃ N r s', r ≠ .diverge ∧ ∀ k, N ≤ k → unwrapShapes k frags frags' (parseFromPath E n m path {}).2 = (r, s') := by
  obtain ⟨N, o, h1, h2, _⟩ := Stops.unwrapShapes_halts (frags := frags) (frags' := frags') (fun _ h => h) (stops_start (c67_share_nothing E n m path) hu hc)
  exact ⟨N, o.1, o.2, h2, fun k hk => h1 k k hk hk⟩

/-- C79: for the fragments of the parsed model it returns, without a panic, if the elements of enumerations are scalars. -/
theorem c79_answers (E : Env) (n m : Nat) (path : String) (f : FragRef) (s : St) (h : parseFromPath E n m path {} = (.ok f, s)) {frags frags' : List FragRef}
    (hf : frags.Perm (s.fragments.map (·.2))) (hf' : frags'.Perm (s.fragments.map (·.2))) (hu : NoUnions s) (hc : NoCustomFacets s) (he : ScalarEnums s) :
    ∃ N r s', (r = .ok () ∨ ∃ e, r = .err e) ∧ ∀ k, N ≤ k → unwrapShapes k frags frags' s = (r, s') := by
  have hs : (parseFromPath E n m path {}).2 = s := by rw [h]
  obtain ⟨N, r, s', h1, h2⟩ := c79_ends E n m path (hs ▸ hu) (hs ▸ hc) frags frags'
  rw [hs] at h2
  refine ⟨N, r, s', ?_, h2⟩
  cases r with
  | ok _ => exact .inl rfl
  | err e => exact .inr ⟨e, rfl⟩
  | panic e => exact absurd (by rw [h2 N (Nat.le_refl _)]) (c61_no_panic E n m path f s h N hf hf' he e)
  | diverge => exact absurd rfl h1

/-- C79, for a single type: without unions `UnwrapShape` ends on every type of every model, parsed or not, with or without custom facets. -/
theorem c79_one_ends (s : St) (hu : NoUnions s) (a : Addr) : ∃ N r s', r ≠ .diverge ∧ ∀ k, N ≤ k → unwrap k a s = (r, s') := by
  obtain ⟨N, o, h1, h2, _⟩ := Stops.type_halts (D := .free) (.inr fun _ => ⟨trivial, id⟩) ⟨hu, fun _ _ _ _ _ => trivial, fun _ _ _ _ _ _ _ => id, fun _ h => h.elim⟩ a
  exact ⟨N, o.1, o.2, h2, fun k hk => h1 k k hk hk⟩

/-- C79: once a file is parsed, parsing it with unwrapping ends. -/
theorem c79_parse_ends (E : Env) (ord : Orders) (n m : Nat) (path : String) (f : FragRef) (s : St) (h : parseFromPath E n m path {} = (.ok f, s)) (hu : NoUnions s) (hc : NoCustomFacets s) :
    ∃ N r s', r ≠ .diverge ∧ ∀ n' m', N ≤ n' → N ≤ m' → parseWith E ord n' m' path { withUnwrap := true } {} = (r, s') := by
  have hs : (parseFromPath E n m path {}).2 = s := by rw [h]
  obtain ⟨N, r, s', h1, h2⟩ := c79_ends E n m path (hs ▸ hu) (hs ▸ hc) (ord.unwrap s.fragments) (ord.mark s.fragments)
  rw [hs] at h2
  have same : ∀ n' m', n ≤ n' → m ≤ m' → parseFromPath E n' m' path {} = (.ok f, s) := fun n' m' hn hm => by
    unfold parseFromPath at h ⊢
    cases hfile : E.file path with
    | none => rw [hfile] at h; cases h
    | some text =>
      rw [hfile] at h
      rw [← h]
      exact c76_result_unique E text path n m n' m' hn hm (by rw [show parseFragment E n m text path {} = _ from h]; simp)
  refine ⟨max N (max n m), r.bind fun _ => .ok f, s', by cases r <;> simp_all [Out.bind], fun n' m' hn hm => ?_⟩
  have e1 := h2 n' (by omega)
  have e2 : finishParse E ord n' { withUnwrap := true } s = (r, s') := by
    show M.bind (fun h => unwrapShapes n' (ord.unwrap h.fragments) (ord.mark h.fragments) h) (fun _ => M.ret ()) s = _
    simp only [M.bind, e1]
    cases r <;> rfl
  unfold parseWith
  simp only [M.bind, same n' m' (by omega) (by omega), e2]
  cases r <;> rfl

/-- C79: `FindAndMarkRecursion` ends on every type of every model in which no type declares custom facets, with or without unions, unwrapped or not. -/
theorem c79_marking_ends (s : St) (hc : NoCustomFacets s) (a : Addr) : ∃ N r s', r ≠ .diverge ∧ ∀ k, N ≤ k → mark k a s = (r, s') := by
  obtain ⟨N, o, h1, h2, _⟩ := Stops.mark_halts (s0 := s) ⟨hc, fun _ h => h⟩ a
  exact ⟨N, o.1, o.2, h2, fun k hk => h1 k k hk hk⟩

/-! ## A library -/

/-- Types that inherit from each other, from several parents, from themselves through their parts, and through references. -/
def exDynasty : List (String × YNode) := [
  ("Node", exMap [("properties", exMap [("next?", .str "Leaf"), ("kids", .str "Node[]"), ("name", .str "Name")])]),
  ("Leaf", exMap [("type", .str "Node"), ("properties", exMap [("next?", .str "Deep"), ("size", .str "integer")])]),
  ("Deep", exMap [("type", .mk .sequence "!!seq" "" [.str "Leaf", .str "Other"]), ("properties", exMap [("next?", exMap [("type", .str "Deep"), ("description", .str "x")])])]),
  ("Other", exMap [("properties", exMap [("size", .str "integer"), ("/^x/", .str "Again")])]),
  ("Again", .str "Deep"),
  ("Name", exMap [("type", .str "string"), ("minLength", .mk .scalar "!!int" "2" [])])]

/-- Both conditions for one type, computed. -/
def exPlainAt (s : St) (b : Base) : Bool := (match b.shape with | some (.union _ _) => false | _ => true) && (s.props b.facetDefs).isEmpty

theorem exPlain {s : St} (h : s.bases.all (exPlainAt s) = true) : NoUnions s ∧ NoCustomFacets s := by
  have key : ∀ {a b}, s.base a = some b → exPlainAt s b = true := fun hb => List.all_eq_true.1 h _ (List.mem_of_getElem? hb)
  refine ⟨fun a b l e hb hs => ?_, fun a b hb => ?_⟩ <;> have k := key hb <;> simp only [exPlainAt, Bool.and_eq_true, List.isEmpty_iff] at k
  · rw [hs] at k; simp at k
  · exact k.2

/-- The hypotheses of C79 are met: the library is parsed and has no unions and custom facets; its types inherit from each other (`Deep` from two types) and contain themselves.  Here
unwrapping succeeds. -/
example : exResult (parseFromPath (exLibEnv exDynasty) 20 20 "a.raml" {}) = some (.library 0) ∧ NoUnions (exLibModel exDynasty) ∧ NoCustomFacets (exLibModel exDynasty) ∧
    (exLibModel exDynasty).bases.length = 17 ∧ ((exLibModel exDynasty).bases.filter fun b => ((exLibModel exDynasty).slice b.inherits).length != 0).length = 3 ∧
    (exLibUnwrap exDynasty).1 = .ok () ∧ ∀ frags frags', ∃ N r s', r ≠ .diverge ∧ ∀ k, N ≤ k → unwrapShapes k frags frags' (exLibModel exDynasty) = (r, s') := by
  obtain ⟨h1, h2⟩ := exPlain (s := exLibModel exDynasty) (by decide +kernel)
  exact ⟨by decide +kernel, h1, h2, by decide +kernel, by decide +kernel, by decide +kernel, c79_ends _ _ _ _ h1 h2⟩

/-- Types with custom facets, one of them of the type itself. -/
def exTraits : List (String × YNode) := [
  ("Trait", exMap [("type", .str "string"), ("facets", exMap [("self?", .str "Trait"), ("level?", .str "Other")])]),
  ("Other", exMap [("properties", exMap [("t", .str "Trait")]), ("facets", exMap [("again?", .str "Other")])])]

/-- The hypothesis of `c79_one_ends` is met by a model with custom facets. -/
example : exResult (parseFromPath (exLibEnv exTraits) 20 20 "a.raml" {}) = some (.library 0) ∧ NoUnions (exLibModel exTraits) ∧ ¬ NoCustomFacets (exLibModel exTraits) ∧
    exResult (unwrap 20 0 (exLibModel exTraits)) = some 0 := by
  refine ⟨by decide +kernel, fun a b l e hb hq => ?_, fun hc => ?_, by decide +kernel⟩
  · have := List.all_eq_true.1 (show ((exLibModel exTraits).bases.all fun b => match b.shape with | some (.union _ _) => false | _ => true) = true by decide +kernel) b (List.mem_of_getElem? hb)
    rw [hq] at this
    cases this
  · have h : ((exLibModel exTraits).bases.all fun b => ((exLibModel exTraits).props b.facetDefs).isEmpty) = true :=
      List.all_eq_true.2 fun b hb => by
        obtain ⟨a, ha⟩ := List.mem_iff_getElem?.1 hb
        rw [hc a b ha]; rfl
    exact absurd h (by decide +kernel)

/-- With one property of another kind, unwrapping ends with an error. -/
def exFeud : List (String × YNode) := exDynasty.map fun t =>
  if t.1 = "Other" then (t.1, exMap [("properties", exMap [("size", .str "string")])]) else t

example : NoUnions (exLibModel exFeud) ∧ NoCustomFacets (exLibModel exFeud) ∧ (exLibUnwrap exFeud).1 = .err "cannot inherit from different type" := by
  obtain ⟨h1, h2⟩ := exPlain (s := exLibModel exFeud) (by decide +kernel)
  exact ⟨h1, h2, by decide +kernel⟩

end GoRaml.Props
