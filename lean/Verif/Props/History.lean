import Verif.Props.InFiles
import Verif.Props.Decode
import Verif.Props.Heirs

/-!
# What calls on the same object leave behind (C84)
-/

namespace GoRaml.Props

open GoRaml GoRaml.Spec

/-! ## In general -/

/-- When the loop over unresolved types ends, well or with an error, none is left. -/
theorem resolveLoop_empties {E : Env} {n : Nat} : ∀ (m : Nat) (good : Bool) (s s' : St) (o : Out Unit), resolveLoop E n m good s = (o, s') → o = .ok () ∨ (∃ e, o = .err e) → s'.unresolved = [] := by
  intro m
  induction m with
  | zero =>
    intro good s s' o h ho
    unfold resolveLoop at h
    cases hu : s.unresolved with
    | nil =>
      rw [hu] at h
      cases good <;> (cases h; exact hu)
    | cons a l =>
      rw [hu] at h
      cases h
      rcases ho with ho | ⟨e, ho⟩ <;> cases ho
  | succ m ih =>
    intro good s s' o h ho
    unfold resolveLoop at h
    cases hu : s.unresolved with
    | nil =>
      rw [hu] at h
      cases good <;> (cases h; exact hu)
    | cons a l =>
      rw [hu] at h
      simp only [M.bind, M.attempt, M.modify] at h
      cases hr : resolveShape E n a s with
      | mk r t =>
        rw [hr] at h
        cases r with
        | ok u => exact ih _ _ _ _ h ho
        | err e => exact ih _ _ _ _ h ho
        | panic e => cases h; rcases ho with ho | ⟨e, ho⟩ <;> cases ho
        | diverge => cases h; rcases ho with ho | ⟨e, ho⟩ <;> cases ho

/-- The annotation at `i` is linked to its type. -/
def LinkedAt (s : St) (i : Nat) : Prop := ∃ de, s.domainExts[i]? = some de ∧ de.definedBy ≠ none

/-- One annotation: on success it is linked; nothing else changes. -/
theorem resolveDomainExtension_links {i : Nat} {s s' : St} {o : Out Unit} (h : resolveDomainExtension i s = (o, s')) :
    s'.unresolved = s.unresolved ∧ s'.domainExts.length = s.domainExts.length ∧ (∀ j, LinkedAt s j → LinkedAt s' j) ∧ (o = .ok () → LinkedAt s' i) := by
  unfold resolveDomainExtension at h
  cases hd : s.domainExts[i]? with
  | none => rw [hd] at h; cases h; exact ⟨rfl, rfl, fun _ => id, fun e => by cases e⟩
  | some de =>
    rw [hd] at h
    simp only [M.bind, M.lift, M.modify] at h
    cases hg : getReferenced s Lib.annotationTypes de.name de.location with
    | ok ref =>
      rw [hg] at h
      cases h
      refine ⟨rfl, by simp, fun j ⟨dj, h1, h2⟩ => ?_, fun _ => ⟨{ de with definedBy := some ref }, by simp [List.getElem?_modify, hd], by simp⟩⟩
      by_cases hj : i = j
      · exact ⟨{ dj with definedBy := some ref }, by simp [List.getElem?_modify, h1, hj], by simp⟩
      · exact ⟨dj, by simp [List.getElem?_modify, h1, hj], h2⟩
    | err e => rw [hg] at h; cases h; exact ⟨rfl, rfl, fun _ => id, fun e => by cases e⟩
    | panic e => rw [hg] at h; cases h; exact ⟨rfl, rfl, fun _ => id, fun e => by cases e⟩
    | diverge => rw [hg] at h; cases h; exact ⟨rfl, rfl, fun _ => id, fun e => by cases e⟩

/-- All annotations of the list. -/
theorem resolveExtLoop_links : ∀ (l : List Nat) (good : Bool) (s s' : St), resolveExtLoop l good s = (.ok (), s') →
    good = true ∧ s'.unresolved = s.unresolved ∧ s'.domainExts.length = s.domainExts.length ∧ (∀ j, LinkedAt s j → LinkedAt s' j) ∧ ∀ i ∈ l, LinkedAt s' i
  | [], good, s, s', h => by
    cases good with
    | false => cases h
    | true => cases h; exact ⟨rfl, rfl, rfl, fun _ => id, fun i hi => by cases hi⟩
  | i :: l, good, s, s', h => by
    simp only [resolveExtLoop, M.bind, M.attempt] at h
    cases hr : resolveDomainExtension i s with
    | mk r t =>
      obtain ⟨a1, a2, a3, a4⟩ := resolveDomainExtension_links hr
      rw [hr] at h
      cases r with
      | ok u =>
        obtain ⟨b0, b1, b2, b3, b4⟩ := resolveExtLoop_links l _ _ _ h
        refine ⟨by simpa using b0, b1.trans a1, b2.trans a2, fun j hj => b3 j (a3 j hj), fun j hj => ?_⟩
        rcases List.mem_cons.1 hj with rfl | hj
        · exact b3 _ (a4 rfl)
        · exact b4 j hj
      | err e => exact absurd (resolveExtLoop_links l _ _ _ h).1 (by simp)
      | panic e => cases h
      | diverge => cases h

/-- C84: if a call succeeds, no type of the object waits to be resolved and every annotation is linked to its type, whatever calls were made before on the object and however they
ended. -/
theorem c84_nothing_left (E : Env) (n m : Nat) (path : String) (f : FragRef) (s s' : St) (h : parseFromPath E n m path s = (.ok f, s')) :
    s'.unresolved = [] ∧ ∀ de ∈ s'.domainExts, de.definedBy ≠ none := by
  unfold parseFromPath at h
  cases hf : E.file path with
  | none => rw [hf] at h; cases h
  | some text =>
    rw [hf] at h
    simp only [parseFragment, M.bind] at h
    cases hd : decodeEntry E n text path s with
    | mk o t =>
      rw [hd] at h
      cases o with
      | ok f' =>
        simp only at h
        cases hr : resolveShapes E n m t with
        | mk o u =>
          rw [hr] at h
          cases o with
          | ok _ =>
            simp only at h
            cases hx : resolveDomainExtensions u with
            | mk o v =>
              rw [hx] at h
              cases o with
              | ok _ =>
                cases h
                obtain ⟨_, b1, b2, _, b4⟩ := resolveExtLoop_links _ _ _ _ hx
                refine ⟨b1.trans (resolveLoop_empties _ _ _ _ _ hr (.inl rfl)), fun de hde => ?_⟩
                obtain ⟨i, hi, hde⟩ := List.getElem_of_mem hde
                obtain ⟨de', h1, h2⟩ := b4 i (List.mem_range.2 (b2 ▸ hi))
                rw [List.getElem?_eq_getElem hi, hde] at h1
                cases h1
                exact h2
              | err e => cases h
              | panic e => cases h
              | diverge => cases h
          | err e => cases h
          | panic e => cases h
          | diverge => cases h
      | err e => cases h
      | panic e => cases h
      | diverge => cases h

/-- C84: a call that cannot read the file, or does not find the head of a fragment in it, leaves the object as it was. -/
theorem c84_unread (E : Env) (n m : Nat) (path : String) (s : St)
    (h : E.file path = none ∨ ∃ text, E.file path = some text ∧ ((∃ e, readHead text = .err e) ∨ ∃ head e, readHead text = .ok head ∧ identifyFragment head = .err e)) :
    ∃ e, parseFromPath E n m path s = (.err e, s) := by
  unfold parseFromPath
  rcases h with h | ⟨text, h, ⟨e, he⟩ | ⟨head, e, h1, h2⟩⟩
  · rw [h]; exact ⟨_, rfl⟩
  · rw [h]; simp only [parseFragment, decodeEntry, M.bind, M.lift, he]; exact ⟨_, rfl⟩
  · rw [h]; simp only [parseFragment, decodeEntry, M.bind, M.lift, h1, h2]; exact ⟨_, rfl⟩

/-- C84: whatever calls were made on an object and however they ended, its types share no parts. -/
theorem c84_share_nothing (E : Env) (s : St) (h : AfterCalls E s) : ShareNothing s := (Apart.afterCalls_own h).share

/-- C84: whatever calls were made on an object and however they ended, `UnwrapShapes` ends if no type is a union or declares custom facets. -/
theorem c84_unwrapping_ends (E : Env) (s : St) (h : AfterCalls E s) (hu : NoUnions s) (hc : NoCustomFacets s) (frags frags' : List FragRef) :
    ∃ N r s', r ≠ .diverge ∧ ∀ k, N ≤ k → unwrapShapes k frags frags' s = (r, s') := by
  obtain ⟨N, o, h1, h2, _⟩ := Stops.unwrapShapes_halts (frags := frags) (frags' := frags') (fun _ h => h) (stops_start (c84_share_nothing E s h) hu hc)
  exact ⟨N, o.1, o.2, h2, fun k hk => h1 k k hk hk⟩

section
variable (E : Env) (s s' : St)

/-- C84: after calls that all succeeded, each for a file that was new to the object, every type of the object is resolved: it has one of the built-in kinds. -/
theorem c84_all_resolved (h : Successes E {} s) (a : Addr) (b : Base) (hb : s.base a = some b) : ∃ sh, b.shape = some sh ∧ Kind sh = b.type ∧ b.type ∈ builtinKinds := by
  obtain ⟨sh, h1, h2, h3⟩ := (Read.successes_held Read.held_new h).1.loaded.typed hb
  rcases kind_emptyShape b.type with h4 | ⟨h4, h5⟩
  · rw [h2, h4] at h3; exact absurd rfl h3
  · exact ⟨sh, h1, h2.trans h4, h5⟩

/-- C84: after such calls no pointer of the object leads nowhere, and no two types have the same ID. -/
theorem c84_well_formed (h : Successes E {} s) :
    WellFormed s ∧ (∀ l ∈ s.libs, (∀ e ∈ l.types, IsBase s e.2) ∧ ∀ e ∈ l.annotationTypes, IsBase s e.2) ∧ (∀ d ∈ s.dts, ∃ a, d.shape = some a ∧ IsBase s a) ∧
    ∀ x y b c, s.base x = some b → s.base y = some c → b.id = c.id → x = y := by
  have hw := (Read.successes_held Read.held_new h).1.loaded
  refine ⟨hw.wellFormed, fun l hl => ?_, fun d hd => ?_, hw.w.idInj⟩
  · obtain ⟨i, hi⟩ := List.mem_iff_getElem?.1 hl
    exact ⟨(hw.w.lib i l hi).types, (hw.w.lib i l hi).annotationTypes⟩
  · obtain ⟨i, hi⟩ := List.mem_iff_getElem?.1 hd
    exact (hw.w.dt i d hi).shape

/-- C84: after such calls every annotation is linked to the annotation type that it names, in the file it is in. -/
theorem c84_annotations_linked (h : Successes E {} s) (de : DomainExt) (hd : de ∈ s.domainExts) :
    ∃ a, de.definedBy = some a ∧ getReferenced s Lib.annotationTypes de.name de.location = .ok a ∧ Concrete s a := by
  have hw := (Read.successes_held Read.held_new h).1.loaded
  obtain ⟨i, hi⟩ := List.mem_iff_getElem?.1 hd
  obtain ⟨a, h1, h2⟩ := hw.exts i de hi
  obtain ⟨b, hb⟩ := Load.isBase_base (Load.getReferenced_isBase hw.w (fun l hl => hl.annotationTypes) h2)
  exact ⟨a, h1, h2, b, hb, hw.typed hb⟩

/-- C84: after such calls every library and every data type of the object is what its file says, whichever call has read it. -/
theorem c84_as_in_files (h : Successes E {} s) : (∀ l ∈ s.libs, LibraryReads E (Describes E s) l) ∧ ∀ d ∈ s.dts, DataTypeReads E (Describes E s) d := by
  have hw := (Read.successes_held Read.held_new h).1
  refine ⟨fun l hl => ?_, fun d hd => ?_⟩
  · obtain ⟨j, hj⟩ := List.mem_iff_getElem?.1 hl
    exact Read.LibraryReads.mono (fun _ _ _ _ => Read.describes hw.loaded) (hw.new.libs j l (Nat.zero_le _) hj)
  · obtain ⟨j, hj⟩ := List.mem_iff_getElem?.1 hd
    exact Read.DataTypeReads.mono (fun _ _ _ _ => Read.describes hw.loaded) (hw.new.dts j d (Nat.zero_le _) hj)

/-- C84: after such calls no type is built on itself, and the types a type is built on are resolved. -/
theorem c84_lineage (h : Successes E {} s) : (∀ a, ¬ AncestorOf s a a) ∧ ∀ a x, AncestorOf s x a → Concrete s x :=
  ⟨ready_no_own_ancestor E s (Load.ready_successes h), fun _ _ hx => ready_ancestors_resolved E s (Load.ready_successes h) hx⟩

/-- C84: further such calls leave everything that the object had as it was: types, with their properties, pattern properties and facet values, libraries, data types and what is registered
under which path. -/
theorem c84_earlier_kept (h : Successes E {} s) (h' : Successes E s s') :
    (∀ a b, s.base a = some b → s'.base a = some b ∧ s'.facetMap b.facets = s.facetMap b.facets ∧ s'.props b.facetDefs = s.props b.facetDefs ∧
      ∀ f, b.shape = some (.object f) → s'.props f.properties = s.props f.properties ∧ s'.patProps f.patternProperties = s.patProps f.patternProperties) ∧
    (∀ (i : Nat) (l : Lib), s.libs[i]? = some l → s'.libs[i]? = some l) ∧ (∀ (i : Nat) (d : DT), s.dts[i]? = some d → s'.dts[i]? = some d) ∧
    ∀ p f, getFragment s p = some f → getFragment s' p = some f := by
  have hw := (Read.successes_held Read.held_new h).1
  obtain ⟨_, hk, hm⟩ := Read.successes_held hw h'
  have hP : ∀ i, i < s.pmaps.length → s'.props (some i) = s.props (some i) := fun i hi => by
    simp only [St.props]; rw [hm.props i _ (List.getElem?_eq_getElem hi), List.getElem?_eq_getElem hi]
  have hQ : ∀ i, i < s.ppmaps.length → s'.patProps (some i) = s.patProps (some i) := fun i hi => by
    simp only [St.patProps]; rw [hm.patProps i _ (List.getElem?_eq_getElem hi), List.getElem?_eq_getElem hi]
  refine ⟨fun a b hb => ⟨hk.base a b hb, ?_, ?_, fun f hf => ⟨?_, ?_⟩⟩, hk.lib, hk.dt, hk.frag⟩
  · have k := hw.tied.own a b hb
    have hi : a < s.fmaps.length := hw.tied.len ▸ (List.getElem?_eq_some_iff.1 hb).1
    rw [k]
    simp only [St.facetMap]; rw [hm.facets a _ (List.getElem?_eq_getElem hi), List.getElem?_eq_getElem hi]
  · cases hd : b.facetDefs with
    | none => rfl
    | some i => exact hP i ((hw.loaded.w.base a b hb).facetDefs i hd)
  · cases hd : f.properties with
    | none => rfl
    | some i => exact hP i (((hw.loaded.w.base a b hb).shape _ hf).1 i hd)
  · cases hd : f.patternProperties with
    | none => rfl
    | some i => exact hQ i (((hw.loaded.w.base a b hb).shape _ hf).2 i hd)

section
variable {k : Nat} {frags frags' : List FragRef} (hf : frags.Perm (s.fragments.map (·.2))) (hf' : frags'.Perm (s.fragments.map (·.2)))
include hf hf'

/-- C84: after such calls `UnwrapShapes` panics in no other way than by comparing two lists or two maps, in whatever order it meets the files, and whether it succeeds or fails, no pointer
of the object leads nowhere afterwards, and it declares the same names and has the same annotations. -/
theorem c84_unwrap (h : Successes E {} s) : (∀ e, (unwrapShapes k frags frags' s).1 = .panic e → Uncomparable e) ∧
    WholeModel (unwrapShapes k frags frags' s).2 ∧ SameOutline s (unwrapShapes k frags frags' s).2 := by
  have hl := (Load.ready_successes h).held.loaded
  exact ⟨fun e hr => loaded_panics E s hl k hf hf' hr, loaded_model_kept E s hl k hf hf'⟩

/-- C84: if it succeeds, every declared type is unwrapped, and finite unless it is left marked as visited. -/
theorem c84_after_unwrap (h : Successes E {} s) {t : St} (hr : unwrapShapes k frags frags' s = (.ok (), t)) :
    AllUnwrapped t ∧ ∀ a, DeclaredType t a → ¬ LeftVisited t a → NoInfiniteComponents t a ∧ FullyUnwrapped t a :=
  loaded_after_unwrap E s (Load.ready_successes h).held.loaded k hf hf' hr

/-- C84: and, if no type is a union, each type that is not just another name of a type says what it said before, and each name that a library declares leads to the type it led to before,
or to an ancestor of it that allows every value. -/
theorem c84_declared_names (h : Successes E {} s) (hu : NoUnions s) {t : St} (hr : unwrapShapes k frags frags' s = (.ok (), t)) :
    (∀ a b, s.base a = some b → b.alias = none → ∃ b', t.base a = some b' ∧ SaysTheSame b b') ∧
    (∀ (i : Nat) (l : Lib), s.libs[i]? = some l → ∃ l', t.libs[i]? = some l' ∧ l'.types.map (·.1) = l.types.map (·.1) ∧ l'.annotationTypes.map (·.1) = l.annotationTypes.map (·.1) ∧
      (∀ x a r, (x, a) ∈ l.types → (x, r) ∈ l'.types → StandsFor s r a) ∧ ∀ x a r, (x, a) ∈ l.annotationTypes → (x, r) ∈ l'.annotationTypes → StandsFor s r a) ∧
    ∀ (i : Nat) (d : DT) a, s.dts[i]? = some d → d.shape = some a → ∃ d' r, t.dts[i]? = some d' ∧ d'.shape = some r ∧ StandsFor s r a := by
  have hR := Load.ready_successes h
  exact ⟨fun _ _ hb ha => ready_own_kept E s hR hu hf hf' hr hb ha, fun _ _ hl => ready_names E s hR hu hf hf' hr hl, fun _ _ _ hd ha => ready_data_types E s hR hu hf hf' hr hd ha⟩

/-- C84: if no type is a union or declares custom facets, `ValidateShapes` then returns, does not panic, changes nothing, and reports no error exactly when the model is valid, if no
annotation has lost its type. -/
theorem c84_validates (h : Successes E {} s) (hu : NoUnions s) (hc : NoCustomFacets s) {t : St} (hr : unwrapShapes k frags frags' s = (.ok (), t)) (hv : RuntimeModel s)
    (hx : ∀ d ∈ t.domainExts, d.definedBy ≠ none) {vf : List FragRef} (X : Ext) {ord : OMap Property → OMap Property} (ho : ∀ l, (ord l).Perm l)
    (hvf : vf.Perm (s.fragments.map (·.2))) : Settled (fun k => (validateShapes X ord vf k t).1) (ModelOK X t) ∧ ∀ k, (validateShapes X ord vf k t).2 = t :=
  ready_validates E s (Load.ready_successes h) hu hc hf hf' hr hv hx X ho hvf

end

end

/-! ## A failed call can hide errors, or cause them -/

/-- A library with a type whose parent is not declared; one that uses it; one with an annotation that is not declared; one without any errors; one that uses it; a file that is no fragment. -/
def exCallsEnv : Env := exFilesEnv [
  ("bad.raml", "#%RAML 1.0 Library\nb", exDoc [("types", exMap [("A", .str "Missing")])]),
  ("user.raml", "#%RAML 1.0 Library\nu", exDoc [("uses", exMap [("b", .str "bad.raml")]), ("types", exMap [("T", .str "string")])]),
  ("note.raml", "#%RAML 1.0 Library\nn", exDoc [("(x)", .str "1"), ("types", exMap [("T", .str "string")])]),
  ("good.raml", "#%RAML 1.0 Library\ng", exDoc [("types", exMap [("T", .str "string")])]),
  ("more.raml", "#%RAML 1.0 Library\nm", exDoc [("uses", exMap [("g", .str "good.raml")]), ("types", exMap [("U", exMap [("type", .str "object"), ("properties", exMap [("t", .str "g.T")])])])]),
  ("text.raml", "text\n", exDoc [])]

/-- The calls `ParseFromPath(p)` for the given paths on one object, the last one first: how the last one ends. -/
def exCalls : List String → Out FragRef × St
  | [] => (.err "no call", {})
  | p :: ps => parseFromPath exCallsEnv 20 20 p (match ps with | [] => {} | _ => (exCalls ps).2)

/-- C84 fails: parsing a file fails, and parsing it again on the same object succeeds.  (The library that it uses is registered already, and the type in it that could not be resolved is no
longer on the list.) -/
theorem c84_second_call_succeeds : (exCalls ["user.raml"]).1 = .err "resolve shape" ∧ exResult (exCalls ["user.raml", "user.raml"]) = some (.library 2) := by
  constructor <;> decide +kernel

/-- C84 fails: a file that uses a library with an error is parsed without an error, if parsing that library has failed before. -/
theorem c84_error_hidden : (exCalls ["bad.raml"]).1 = .err "resolve shape" ∧ (exCalls ["user.raml"]).1 = .err "resolve shape" ∧
    exResult (exCalls ["user.raml", "bad.raml"]) = some (.library 1) := by
  refine ⟨?_, ?_, ?_⟩ <;> decide +kernel

/-- C84 fails: after a call that failed because of an annotation, calls for a file without errors fail too, again and again. -/
theorem c84_error_stays : (exCalls ["note.raml"]).1 = .err "resolve domain extension" ∧ exResult (exCalls ["good.raml"]) = some (.library 0) ∧
    (exCalls ["good.raml", "note.raml"]).1 = .err "resolve domain extension" ∧ (exCalls ["good.raml", "good.raml", "note.raml"]).1 = .err "resolve domain extension" := by
  refine ⟨?_, ?_, ?_, ?_⟩ <;> decide +kernel

/-- C84 fails: a call for a file that the object has already, here because another file uses it, succeeds and makes a second library the entry point; registered under the path is still the
first one. -/
theorem c84_read_again : exResult (exCalls ["good.raml", "more.raml"]) = some (.library 2) ∧
    getFragment (exCalls ["good.raml", "more.raml"]).2 "good.raml" = some (.library 1) ∧
    (exCalls ["good.raml", "more.raml"]).2.libs.map (fun l => (l.location, l.uses)) = [("more.raml", [("g", "good.raml", some 1)]), ("good.raml", []), ("good.raml", [])] := by
  refine ⟨?_, ?_, ?_⟩ <;> decide +kernel

/-- C84 fails: and unwrapping the object then succeeds, but leaves out the types of the entry point. -/
theorem c84_read_again_unwrapped :
    let s := (exCalls ["good.raml", "more.raml"]).2
    let r := unwrapShapes 20 (s.fragments.map (·.2)) (s.fragments.map (·.2)) s
    r.1 = .ok () ∧ r.2.libs.map (fun l => l.types.map fun e => (e.1, (r.2.base e.2).map (·.unwrapped))) = [[("U", some true)], [("T", some true)], [("T", some false)]] := by
  refine ⟨?_, ?_⟩ <;> decide +kernel

/-- A library with an array type whose items are of that same type, and one with an heir of that type which says the same of its items. -/
def exTreesEnv : Env := exFilesEnv [
  ("tree.raml", "#%RAML 1.0 Library\nt", exDoc [("types", exMap [("Tree", exMap [("type", .str "array"), ("items", .str "Tree")])])]),
  ("mine.raml", "#%RAML 1.0 Library\nm", exDoc [("uses", exMap [("t", .str "tree.raml")]), ("types", exMap [("My", exMap [("type", .str "t.Tree"), ("items", .str "t.Tree")])])])]

/-- C84 fails if calls unwrap the model: with unwrapping, a file is parsed without an error on a new object, and also if the library that it uses has been parsed before; but not if that
library has been unwrapped before.  (Unwrapping has put a marker in place of the items of `Tree`, and an array cannot inherit from a marker.) -/
theorem c84_unwrapped_before : exResult (parseWith exTreesEnv {} 20 20 "mine.raml" { withUnwrap := true } {}) = some (.library 0) ∧
    exResult (parseFromPath exTreesEnv 20 20 "tree.raml" {}) = some (.library 0) ∧
    exResult (parseWith exTreesEnv {} 20 20 "mine.raml" { withUnwrap := true } (parseFromPath exTreesEnv 20 20 "tree.raml" {}).2) = some (.library 1) ∧
    exResult (parseWith exTreesEnv {} 20 20 "tree.raml" { withUnwrap := true } {}) = some (.library 0) ∧
    (parseWith exTreesEnv {} 20 20 "mine.raml" { withUnwrap := true } (parseWith exTreesEnv {} 20 20 "tree.raml" { withUnwrap := true } {}).2).1 =
      .err "cannot inherit from different type" := by
  refine ⟨?_, ?_, ?_, ?_, ?_⟩ <;> decide +kernel

/-- A call that succeeds, as a step. -/
theorem exStep {E : Env} {n m : Nat} {p : String} {s : St} {f : FragRef} (h : exResult (parseFromPath E n m p s) = some f) :
    parseFromPath E n m p s = (.ok f, (parseFromPath E n m p s).2) := by
  generalize parseFromPath E n m p s = r at h ⊢
  obtain ⟨o, t⟩ := r
  cases o <;> simp_all [exResult]

/-- Two calls that succeed, for a file and for one that uses it. -/
theorem exTwoCalls : Successes exCallsEnv {} (exCalls ["good.raml"]).2 ∧ Successes exCallsEnv (exCalls ["good.raml"]).2 (exCalls ["more.raml", "good.raml"]).2 :=
  ⟨.call .none (by decide +kernel) (exStep (f := .library 0) (n := 20) (m := 20) (p := "good.raml") (by decide +kernel)),
    .call .none (by decide +kernel) (exStep (f := .library 1) (n := 20) (m := 20) (p := "more.raml") (by decide +kernel))⟩

/-- The hypotheses are met: the second call leaves the type of the first library as it was, and adds one with it as a property. -/
example : ∃ s s', Successes exCallsEnv {} s ∧ Successes exCallsEnv s s' ∧ s.bases.length = 1 ∧ s'.bases.length = 3 ∧ s'.base 0 = s.base 0 ∧ ShareNothing s' := by
  obtain ⟨h1, h2⟩ := exTwoCalls
  refine ⟨_, _, h1, h2, by decide +kernel, by decide +kernel, ?_, c84_share_nothing _ _ (.call 20 20 "more.raml" (.call 20 20 "good.raml" .new))⟩
  have hi : (exCalls ["good.raml"]).2.bases.length = 1 := by decide +kernel
  generalize (exCalls ["good.raml"]).2 = s at h1 h2 hi
  generalize (exCalls ["more.raml", "good.raml"]).2 = s' at h2
  have hb : s.base 0 = some s.bases[0] := List.getElem?_eq_getElem _
  rw [hb]
  exact ((c84_earlier_kept exCallsEnv s s' h1 h2).1 0 _ hb).1

/-- After these two calls there are no unions and no custom facets, and unwrapping succeeds. -/
example :
    let s := (exCalls ["more.raml", "good.raml"]).2
    NoUnions s ∧ NoCustomFacets s ∧ (unwrapShapes 20 (s.fragments.map (·.2)) (s.fragments.map (·.2)) s).1 = .ok () ∧ s.fragments.length = 2 :=
  ⟨(exPlain (by decide +kernel)).1, (exPlain (by decide +kernel)).2, by decide +kernel, by decide +kernel⟩

/-- Nor after a single call, for the file that uses the other one; and its values are those that decoders make. -/
example : ∃ s t, Successes exCallsEnv {} s ∧ NoUnions s ∧ NoCustomFacets s ∧ RuntimeModel s ∧ s.fragments.length = 2 ∧
    unwrapShapes 20 (s.fragments.map (·.2)) (s.fragments.map (·.2)) s = (.ok (), t) ∧ ∀ d ∈ t.domainExts, d.definedBy ≠ none := by
  have h : exResult (parseFromPath exCallsEnv 20 20 "more.raml" {}) = some (.library 0) := by decide +kernel
  have ho : Orderly exCallsEnv := orderly_files (n := 20) (by decide +kernel) (by decide +kernel) (by decide +kernel)
  obtain ⟨h2, h3⟩ := exPlain (s := (parseFromPath exCallsEnv 20 20 "more.raml" {}).2) (by decide +kernel)
  refine ⟨_, _, .call .none (by decide +kernel) (exStep h), h2, h3, c44_runtime_model _ (exFilesEnv_runtime _) ho _ _ _ _ _ (exStep h), by decide +kernel, exUnwraps (by decide +kernel),
    fun d hd => ?_⟩
  have he : (unwrapShapes 20 ((parseFromPath exCallsEnv 20 20 "more.raml" {}).2.fragments.map (·.2)) ((parseFromPath exCallsEnv 20 20 "more.raml" {}).2.fragments.map (·.2))
    (parseFromPath exCallsEnv 20 20 "more.raml" {}).2).2.domainExts.map (·.name) = [] := by decide +kernel
  rw [List.map_eq_nil_iff.1 he] at hd
  cases hd

/-- The hypotheses of the first theorems are met: by the second call above, and by a file that is not there and one that is no fragment. -/
example : (exCalls ["user.raml", "user.raml"]).2.unresolved = [] ∧ (exCalls ["user.raml"]).1 = .err "resolve shape" :=
  ⟨(c84_nothing_left exCallsEnv 20 20 "user.raml" (.library 2) (exCalls ["user.raml"]).2 _ (by
    exact exStep c84_second_call_succeeds.2)).1, c84_second_call_succeeds.1⟩

example (s : St) : (∃ e, parseFromPath exCallsEnv 20 20 "none.raml" s = (.err e, s)) ∧ ∃ e, parseFromPath exCallsEnv 20 20 "text.raml" s = (.err e, s) :=
  ⟨c84_unread _ _ _ _ _ (.inl (by decide +kernel)), c84_unread _ _ _ _ _ (.inr ⟨"text\n", by decide +kernel, .inr ⟨"text", "unknown fragment kind", by decide +kernel, by decide +kernel⟩⟩)⟩

end GoRaml.Props
