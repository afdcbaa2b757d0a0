import Verif.Lemmas.StillDone
import Verif.Props.History

/-!
# Unwrapping a model again (C85)
-/

namespace GoRaml.Props

open GoRaml GoRaml.Spec

section
variable (E : Env) (s : St) {k : Nat} {frags frags' : List FragRef} (hf : frags.Perm (s.fragments.map (·.2))) (hf' : frags'.Perm (s.fragments.map (·.2))) {s' : St}
  (hr : unwrapShapes k frags frags' s = (.ok (), s'))

include hf hf' hr

theorem ready_settled (h : Load.Ready E s) : Still.Settled s' ∧ ∀ f ∈ s'.fragments.map (·.2), ∀ a ∈ Whole.typesOf s' f, Still.Idle s' a := by
  have hl := h.held.loaded
  have hw := Whole.loaded_wf (K := anyValues) hl (fun _ _ _ h => fine_any h) (fun _ _ _ => ⟨fun _ _ => trivial, fun _ _ _ _ _ _ => trivial, fun _ _ => trivial⟩)
    (fun _ _ _ _ => trivial)
  obtain ⟨hm, ho⟩ := loaded_model_kept E s hl k hf hf'
  rw [hr] at hm ho
  have hu := (loaded_after_unwrap E s hl k hf hf' hr).1
  have hc := Still.unwrapShapes_rest hw (Whole.loaded_there hl (perm_fragments hf)) (Whole.loaded_there hl (perm_fragments hf'))
    (fun e he => hf'.mem_iff.2 (List.mem_map_of_mem he)) (Whole.loaded_exts hl) hr
  have decl : ∀ f ∈ s'.fragments.map (·.2), ∀ a ∈ Whole.typesOf s' f, DeclaredType s' a ∧ IsBase s' a := fun f hfm a ha => by
    obtain ⟨⟨x, f'⟩, he, rfl⟩ := List.mem_map.1 hfm
    cases f' with
    | library i =>
      obtain ⟨l, hl⟩ := hm.libs x i he
      simp only [Whole.typesOf, hl, Option.map_some, Option.getD_some, List.mem_map] at ha
      obtain ⟨e, h1, rfl⟩ := ha
      have hb := hm.libTypes l (List.mem_of_getElem? hl)
      rcases List.mem_append.1 h1 with h1 | h1
      · exact ⟨.annotationType he hl h1, hb.2 e h1⟩
      · exact ⟨.type he hl h1, hb.1 e h1⟩
    | dataType i =>
      obtain ⟨d, hd⟩ := hm.dts x i he
      obtain ⟨a', h1, h2⟩ := hm.dtTypes d (List.mem_of_getElem? hd)
      simp only [Whole.typesOf, hd, Option.bind_some, h1, Option.map_some, Option.getD_some, List.mem_singleton] at ha
      subst ha
      exact ⟨.dataType he hd h1, h2⟩
    | namedExample i => cases ha
  have done : ∀ f ∈ s'.fragments.map (·.2), ∀ a ∈ Whole.typesOf s' f, Still.Done s' a := fun f hfm a ha => by
    obtain ⟨h1, h0⟩ := decl f hfm a ha
    obtain ⟨b, h2⟩ : ∃ b, s'.base a = some b := ⟨_, List.getElem?_eq_getElem h0⟩
    obtain ⟨sh, h3, _⟩ := (hm.wellFormed a b h2).shape
    exact ⟨b, h2, hu.1 a b h1 h2, by rw [h3]; simp⟩
  refine ⟨⟨fun l hl' => ?_, done, fun f hfm => ?_, fun i d hd => ?_⟩, fun f hfm a ha => ?_⟩
  · have : Lib.Outline l ∈ s.libs.map Lib.Outline := ho.libs ▸ List.mem_map_of_mem hl'
    obtain ⟨l0, h1, h2⟩ := List.mem_map.1 this
    have := ready_named E s h l0 h1
    simp only [Lib.Outline, Prod.mk.injEq] at h2
    rw [h2.2.2.1, h2.2.2.2] at this
    exact this
  · obtain ⟨⟨x, f'⟩, he, rfl⟩ := List.mem_map.1 hfm
    cases f' with
    | library i => obtain ⟨l, hl⟩ := hm.libs x i he; exact (List.getElem?_eq_some_iff.1 hl).1
    | dataType i => obtain ⟨l, hl⟩ := hm.dts x i he; exact (List.getElem?_eq_some_iff.1 hl).1
    | namedExample i => trivial
  · obtain ⟨a, h1, _⟩ := hm.dtTypes d (List.mem_of_getElem? hd)
    rw [h1]; simp
  · rcases hc a (decl f hfm a ha).1 with ⟨b, h1, h2⟩ | h1
    · obtain ⟨b', h3, h4, _⟩ := done f hfm a ha
      rw [h1] at h3; cases h3
      exact .inl ⟨b, h1, h4, h2⟩
    · exact .inr h1

variable (h : Successes E {} s) {again again' : List FragRef} (ha : again.Perm (s'.fragments.map (·.2))) (ha' : again'.Perm (s'.fragments.map (·.2)))
  (hx : ∀ d ∈ s'.domainExts, d.definedBy ≠ none)

include h ha ha' hx

theorem again_runs : ∃ N r t, (∀ n, N ≤ n → unwrapShapes n again again' s' = (r, t)) ∧ Still.Repeat s' r t := by
  have hR := Load.ready_successes h
  obtain ⟨h1, h2⟩ := ready_settled E s hf hf' hr hR
  obtain ⟨hm, _⟩ := loaded_model_kept E s hR.held.loaded k hf hf'
  rw [hr] at hm
  refine Still.unwrapShapes_again h1 ha ha' (fun f hfm => h2 f (ha'.mem_iff.1 hfm)) fun d hd => ?_
  have := hm.annotations d hd
  cases hd' : d.definedBy with
  | none => exact absurd hd' (hx d hd)
  | some a =>
    rw [hd'] at this
    exact ⟨a, _, rfl, List.getElem?_eq_getElem (this a rfl)⟩

/-- C85: after files have been parsed on one object and unwrapped, `UnwrapShapes` called again returns and does not panic, if no annotation has lost its type; however it ends, every type
and everything it consists of, every file and what it declares, and every annotation are as the first call left them. -/
theorem c85_model_kept : ∃ N r t, (∀ n, N ≤ n → unwrapShapes n again again' s' = (r, t)) ∧ (∀ e, r ≠ .panic e) ∧ r ≠ .diverge ∧ StillSame s' t := by
  obtain ⟨N, r, t, h1, h2⟩ := again_runs E s hf hf' hr h ha ha' hx
  exact ⟨N, r, t, h1, h2.noPanic, h2.noDiv, h2.same⟩

/-- C85: and it succeeds if the file in which the type of each annotation is declared declares annotation types. -/
theorem c85_succeeds (hh : AnnotationsHome s') : ∃ N t, (∀ n, N ≤ n → unwrapShapes n again again' s' = (.ok (), t)) ∧ StillSame s' t := by
  obtain ⟨N, r, t, h1, h2⟩ := again_runs E s hf hf' hr h ha ha' hx
  have := h2.ok hh
  subst this
  exact ⟨N, t, h1, h2.same⟩

/-- C85, the violation: the list of types that `GetShapes` returns then has none of the types that were in the model before. -/
theorem c85_types_forgotten : ∃ N r t, (∀ n, N ≤ n → unwrapShapes n again again' s' = (r, t)) ∧ ∀ x ∈ t.shapes, s'.base x = none := by
  obtain ⟨N, r, t, h1, h2⟩ := again_runs E s hf hf' hr h ha ha' hx
  exact ⟨N, r, t, h1, fun x hx => List.getElem?_eq_none (h2.shapes x hx)⟩

end

/-! ## Examples -/

/-- A library with a type that has itself as a property, and an annotation; with `rivals`, of two annotation types derived from a type that allows every value. -/
def exTwiceEnv (rivals : Bool) : Env := exFilesEnv [
  ("a.raml", "#%RAML 1.0 Library\na", exDoc [
    ("(note)", .str "x"),
    ("annotationTypes", exMap (if rivals then [("other", exMap [("type", .str "Root")]), ("note", exMap [("type", .str "Root")])] else [("note", .str "string")])),
    ("types", exMap [("Root", .str "any"), ("Node", exMap [("type", .str "object"), ("properties", exMap [("next?", .str "Node")])])])])]

/-- The library, parsed. -/
def exTwiceModel (rivals : Bool) : St := (parseFromPath (exTwiceEnv rivals) 20 20 "a.raml" {}).2

/-- `UnwrapShapes`. -/
def exUnwrapOn (s : St) : Out Unit × St := unwrapShapes 20 (s.fragments.map (·.2)) (s.fragments.map (·.2)) s

/-- C85, the same on a file: it is unwrapped twice; `GetShapes` returns all its types after the first call and none after the second. -/
theorem c85_types_gone :
    exResult (parseFromPath (exTwiceEnv false) 20 20 "a.raml" {}) = some (.library 0) ∧
    (exUnwrapOn (exTwiceModel false)).1 = .ok () ∧ (exUnwrapOn (exTwiceModel false)).2.shapes.length = 5 ∧
    (exUnwrapOn (exUnwrapOn (exTwiceModel false)).2).1 = .ok () ∧ (exUnwrapOn (exUnwrapOn (exTwiceModel false)).2).2.shapes = [] :=
  ⟨by decide +kernel, by decide +kernel, by decide +kernel, by decide +kernel, by decide +kernel⟩

/-- C85, the violation without the hypothesis: an annotation loses its type in the first call, which reports no error; the second panics. -/
theorem c85_panics :
    exResult (parseFromPath (exTwiceEnv true) 20 20 "a.raml" {}) = some (.library 0) ∧
    (exUnwrapOn (exTwiceModel true)).1 = .ok () ∧ (exUnwrapOn (exTwiceModel true)).2.domainExts.map (·.definedBy) = [none] ∧
    (exUnwrapOn (exUnwrapOn (exTwiceModel true)).2).1 = .panic "nil pointer dereference" :=
  ⟨by decide +kernel, by decide +kernel, by decide +kernel, by decide +kernel⟩

/-- The hypotheses of C85 are met. -/
example : Successes (exTwiceEnv false) {} (exTwiceModel false) ∧ exUnwrapOn (exTwiceModel false) = (.ok (), (exUnwrapOn (exTwiceModel false)).2) ∧
    (∀ d ∈ (exUnwrapOn (exTwiceModel false)).2.domainExts, d.definedBy ≠ none) ∧ (exUnwrapOn (exTwiceModel false)).2.domainExts.length = 1 ∧
    AnnotationsHome (exUnwrapOn (exTwiceModel false)).2 := by
  have ok : ∀ {r : Out Unit × St}, r.1 = .ok () → r = (.ok (), r.2) := fun {r} h => by cases r; cases h; rfl
  have hd : (exUnwrapOn (exTwiceModel false)).2.domainExts.map (·.definedBy) = [some 0] := by decide +kernel
  have one : ∀ d ∈ (exUnwrapOn (exTwiceModel false)).2.domainExts, d.definedBy = some 0 := fun d h => by
    have := List.mem_map_of_mem (f := (·.definedBy)) h
    rw [hd] at this
    exact List.mem_singleton.1 this
  refine ⟨.call .none (n := 20) (m := 20) (path := "a.raml") (by decide +kernel) (exParses c85_types_gone.1), ok c85_types_gone.2.1, fun d h => by rw [one d h]; simp,
    by have := congrArg List.length hd; simpa using this, fun d h => ?_⟩
  have hb : ((exUnwrapOn (exTwiceModel false)).2.base 0).map (·.location) = some "a.raml" := by decide +kernel
  have hl : ((exUnwrapOn (exTwiceModel false)).2.libs[0]?).map (fun l => (l.location, l.annotationTypes)) = some ("a.raml", [("note", 0)]) := by decide +kernel
  obtain ⟨b, hb, e⟩ := Option.map_eq_some_iff.1 hb
  obtain ⟨l, hl, e'⟩ := Option.map_eq_some_iff.1 hl
  simp only [Prod.mk.injEq] at e'
  exact ⟨0, b, "a.raml", 0, l, one d h, hb, by decide +kernel, hl, by rw [e, e'.1], by rw [e'.2]; simp⟩

end GoRaml.Props
