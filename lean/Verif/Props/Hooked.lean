import Verif.Lemmas.HookedPolicy
import Verif.Props.InFiles
import Verif.Props.Commons

/-!
# C74: hooks inside parsing, unwrapping and validation
-/

namespace GoRaml.Props

open GoRaml GoRaml.Spec GoRaml.Hooked

/-! ## Hooks that only watch -/

/-- C74: hooks that never fail make no difference: parsing with any options, unwrapping and validating end in the same way, with the same model, as without hooks. -/
theorem c74_watching {H : HookFn} (hq : OnlyWatching H) (E : Env) (ord : Orders) (n m : Nat) (path : String) (o : ParseOpts) (s : St) :
    parseWithH H E ord n m path o s = parseWith E ord n m path o s ∧
    (∀ fs fs', unwrapShapesH H n fs fs' s = unwrapShapes n fs fs' s) ∧
    ∀ fs, validateShapesH H E.toExt ord.facets fs n s = validateShapes E.toExt ord.facets fs n s :=
  ⟨congrFun (parseWith_quiet hq E ord n m path o) s, fun fs fs' => congrFun (unwrapShapes_quiet hq n fs fs') s,
    fun fs => congrFun (validateShapes_quiet hq E.toExt ord.facets fs n) s⟩

/-! ## Hooks that fail -/

/-- C74: hooks can stop a run but not change its result: with hooks that do not fail in inheritance, a run that ends well gives what it gives without hooks. -/
theorem c74_same_result {H : HookFn} (hi : InheritanceUnhooked H) (E : Env) (ord : Orders) (n m : Nat) (path : String) (o : ParseOpts) (s s' : St) :
    (∀ f, parseWithH H E ord n m path o s = (.ok f, s') → parseWith E ord n m path o s = (.ok f, s')) ∧
    (∀ fs fs', unwrapShapesH H n fs fs' s = (.ok (), s') → unwrapShapes n fs fs' s = (.ok (), s')) ∧
    ∀ fs, validateShapesH H E.toExt ord.facets fs n s = (.ok (), s') → validateShapes E.toExt ord.facets fs n s = (.ok (), s') := by
  have hw := weaker_quiet hi
  obtain ⟨q1, q2, q3⟩ := c74_watching (H := fun _ _ _ => .ok ()) (fun _ _ _ => rfl) E ord n m path o s
  refine ⟨fun f h => ?_, fun fs fs' h => ?_, fun fs h => ?_⟩
  · rw [← q1, ← h]
    exact parseWithH_sim hw E ord n m path o s ⟨f, by rw [h]⟩
  · rw [← q2, ← h]
    exact unwrapShapesH_sim hw n fs fs' s ⟨(), by rw [h]⟩
  · rw [← q3, ← h]
    exact validateShapesH_sim hw E.toExt ord.facets fs n s ⟨(), by rw [h]⟩

/-- C74: an error of a hook is never lost: with hooks that do not fail in inheritance, a run ends well only if no hook returned an error. -/
theorem c74_no_error_lost {H : HookFn} (hi : InheritanceUnhooked H) (E : Env) (ord : Orders) (n m : Nat) (path : String) (o : ParseOpts) (s s' : St) :
    (∀ f, parseWithH H E ord n m path o s = (.ok f, s') → parseWithH (panicking H) E ord n m path o s = (.ok f, s')) ∧
    (∀ fs fs', unwrapShapesH H n fs fs' s = (.ok (), s') → unwrapShapesH (panicking H) n fs fs' s = (.ok (), s')) ∧
    ∀ fs, validateShapesH H E.toExt ord.facets fs n s = (.ok (), s') → validateShapesH (panicking H) E.toExt ord.facets fs n s = (.ok (), s') := by
  have hw := weaker_panicking hi
  refine ⟨fun f h => ?_, fun fs fs' h => ?_, fun fs h => ?_⟩
  · rw [← h]
    exact parseWithH_sim hw E ord n m path o s ⟨f, by rw [h]⟩
  · rw [← h]
    exact unwrapShapesH_sim hw n fs fs' s ⟨(), by rw [h]⟩
  · rw [← h]
    exact validateShapesH_sim hw E.toExt ord.facets fs n s ⟨(), by rw [h]⟩

/-! ## Hooks as policies -/

/-- C74: a hook that rejects the declaration of a type keeps its library from being parsed. -/
theorem c74_declaration_rejected {H : HookFn} {E : Env} {path : String} {d v sec : YNode} {k name : String} (hd : Document E path d) (hk : k = "types" ∨ k = "annotationTypes")
    (hs : (k, sec) ∈ entriesOf (docRoot d).content) (hn : sec.tag ≠ "!!null") (hv : (name, v) ∈ entriesOf sec.content)
    (h : Vetoes H "before:RAML.makeNewShapeYAML" [.node v]) (n m i : Nat) (s' : St) : parseFromPathH H E n m path {} ≠ (.ok (.library i), s') :=
  parseFromPathH_vetoed hd h hn hk ⟨name, hv⟩ hs n m i {} s'

/-- C74: if an unwrapped model is valid, then the hooks of validation were asked about every declared type and every component of one, at any depth,
and raised no objection. -/
theorem c74_all_types_asked {H : HookFn} {E : Ext} {ord : OMap Property → OMap Property} {frags : List FragRef} {n : Nat} {s s' : St}
    (hu : AllUnwrapped s) (hf : frags.Perm (s.fragments.map (·.2))) (h : validateShapesH H E ord frags n s = (.ok (), s')) {a y : Addr} (ha : DeclaredType s a) (hy : WithComponents s a y) :
    H "RAML.validateShapeCommons" [.shape y] s = .ok () ∧ H "RAML.validateShapeFacets" [.shape y] s = .ok () ∧ H "RAML.validateExamples" [.shape y] s = .ok () ∧
    ∀ f, s.shapeAt y = some (.object f) → H "RAML.validateObjectShape" [.shape y] s = .ok () := by
  obtain ⟨k, hk⟩ := commons_seen (validateShapesH_ok hf hu.1 h ha) hy
  exact commons_asked hk

/-! ## Examples -/

/-- No strings may be shorter than two characters. -/
def exPolicy : HookFn := fun key args h =>
  match key, args with
  | "RAML.validateShapeCommons", [.shape a] =>
    match h.shapeAt a with
    | some (.string f) => if f.minLength = some 2 then .ok () else .err "too short"
    | _ => .ok ()
  | _, _ => .ok ()

theorem exPolicy_inheritance : InheritanceUnhooked exPolicy := by
  intro key args h hk
  rcases hk with rfl | rfl | rfl <;> rfl

/-- `C` has such strings only. -/
def exBounded : List (String × YNode) := [
  ("Code", exMap [("type", .str "string"), ("minLength", .str "2")]),
  ("C", exMap [("properties", exMap [("code", .str "Code")])])]

/-- `C` has others. -/
def exUnbounded : List (String × YNode) := [
  ("Code", exMap [("type", .str "string"), ("minLength", .str "2")]),
  ("C", exMap [("properties", exMap [("code", .str "Code"), ("note", .str "string")])])]

def exPolicyRun (types : List (String × YNode)) : Out FragRef × St := parseWithH exPolicy (exLibEnv types) {} 20 20 "a.raml" { withUnwrap := true, withValidate := true } {}

/-- The files that keep the policy are accepted, with the result they have without it; the others are rejected, although they are valid. -/
example : exResult (exPolicyRun exBounded) = some (.library 0) ∧ (exPolicyRun exUnbounded).1 = .err "too short" ∧
    exResult (parseWith (exLibEnv exUnbounded) {} 20 20 "a.raml" { withUnwrap := true, withValidate := true } {}) = some (.library 0) := by
  decide +kernel

/-- The property `note` lies below a declared type and is not to the liking of the policy: the objection is the only thing that keeps the model from being valid. -/
example : ∃ e, (validateShapesH exPolicy exE id [.library 0] 20 (exLibUnwrap exUnbounded).2).1 = .err e ∧ exResult (validateShapes exE id [.library 0] 20 (exLibUnwrap exUnbounded).2) = some () :=
  ⟨"too short", by decide +kernel⟩

/-- The hypotheses of `c74_all_types_asked` are met by a library with four types: a type below the declared `O` is
asked about, and a hook that objects to it makes the validation fail. -/
example : AllUnwrapped exCommons ∧ [FragRef.library 0].Perm (exCommons.fragments.map (·.2)) ∧ DeclaredType exCommons 5 ∧ WithComponents exCommons 5 2 ∧
    (validateShapesH (fun key _ _ => if key = "no such hook" then .err "no" else .ok ()) exE id [.library 0] 6 exCommons).1 = .ok () ∧
    (validateShapesH (fun key args _ => match key, args with | "RAML.validateExamples", [.shape 2] => .err "no examples" | _, _ => .ok ()) exE id [.library 0] 6 exCommons).1 = .err "no examples" := by
  have hun : ∀ a b, exCommons.base a = some b → b.unwrapped = true := by
    intro a b h
    rcases exCommons_cases h with rfl | rfl | rfl | rfl | rfl | rfl <;> cases h <;> rfl
  refine ⟨⟨fun a b _ h => hun a b h, fun d _ a b _ h => hun a b h⟩, List.Perm.refl _, .type (k := "api.raml") (i := 0) (e := ("O", 5)) (by decide) rfl (by decide),
    .step ⟨_, rfl, Or.inl ⟨_, rfl, .property (p := ("p", ⟨"p", 2, true⟩)) (by decide)⟩⟩ (.refl 2), by decide +kernel, by decide +kernel⟩

/-- A hook that rejects the first declaration. -/
def exNoCode : HookFn := fun key args _ =>
  match key, args with
  | "before:RAML.makeNewShapeYAML", [.node (.mk .mapping _ _ (.mk _ _ "type" _ :: _))] => .err "no such types"
  | _, _ => .ok ()

example : Vetoes exNoCode "before:RAML.makeNewShapeYAML" [.node (exMap [("type", .str "string"), ("minLength", .str "2")])] ∧
    (∃ d sec, Document (exLibEnv exBounded) "a.raml" d ∧ ("types", sec) ∈ entriesOf (docRoot d).content ∧ sec.tag ≠ "!!null" ∧
      ("Code", exMap [("type", .str "string"), ("minLength", .str "2")]) ∈ entriesOf sec.content) ∧
    (parseFromPathH exNoCode (exLibEnv exBounded) 20 20 "a.raml" {}).1 = .err "no such types" := by
  refine ⟨fun h => ⟨_, rfl⟩, ⟨_, exMap exBounded, ⟨_, rfl, rfl⟩, List.mem_cons_self, by decide, List.mem_cons_self⟩, by decide +kernel⟩

/-! ## Where errors are lost -/

/-- A property is a short or a long string; an heir declares it again. -/
def exShortLong : List (String × YNode) := [
  ("Short", exMap [("type", .str "string"), ("maxLength", .str "2")]),
  ("Long", exMap [("type", .str "string"), ("minLength", .str "4")]),
  ("P", exMap [("properties", exMap [("code", .str "Short | Long")])]),
  ("C", exMap [("type", .str "P"), ("properties", exMap [("code", .str "string")])])]

/-- A hook that wants nothing to be inherited from strings with a lower limit. -/
def exNoLong : HookFn := fun key args h =>
  match key, args with
  | "BaseShape.Inherit", [.shape _, .shape b] =>
    match h.shapeAt b with
    | some (.string f) => if f.minLength.isSome then .err "rejected" else .ok ()
    | _ => .ok ()
  | _, _ => .ok ()

/-- The files, parsed and unwrapped with these hooks. -/
def exHookedUnwrap (H : HookFn) : Out Unit × St :=
  unwrapShapesH H 20 ((exLibModel exShortLong).fragments.map (·.2)) ((exLibModel exShortLong).fragments.map (·.2)) (exLibModel exShortLong)

/-- C74, where the code falls short: an error of a hook before a type inherits from a member of a union is dropped with the member.  Unwrapping ends well although
the hook returned an error; and the model is another one than without the hook: `C` now accepts what it should reject. -/
theorem c74_error_lost_in_union : ∃ s s', exHookedUnwrap exNoLong = (.ok (), s') ∧ (exHookedUnwrap (panicking exNoLong)).1 = .panic "rejected" ∧
    ExUnwrapped exShortLong [("Short", 0), ("Long", 1), ("P", 2), ("C", 4)] s ∧ (s'.libs[0]?).map (·.types) = some [("Short", 0), ("Long", 1), ("P", 2), ("C", 4)] ∧
    Rejects exE s 4 (.map [("code", .str "abc")]) ∧ Accepts exE s' 4 (.map [("code", .str "abc")]) := by
  refine ⟨_, (exHookedUnwrap exNoLong).2, ?_, by decide +kernel, exUnwrapped (by decide +kernel) (by decide +kernel) (by decide +kernel) (by decide +kernel), by decide +kernel,
    ⟨20, "value does not match any type", by decide +kernel⟩, ⟨20, by decide +kernel⟩⟩
  have h : exResult (exHookedUnwrap exNoLong) = some () := by decide +kernel
  cases hd : exHookedUnwrap exNoLong with
  | mk o t =>
    rw [hd] at h
    cases o <;> simp_all [exResult]

end GoRaml.Props
