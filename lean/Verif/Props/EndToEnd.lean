import Verif.Props.Meaning
import Verif.Props.Schema
import Verif.Lemmas.SchemaCheck
import Verif.Lemmas.WholeHeads

/-!
# From files to schemas (C73)
-/

namespace GoRaml.Props

open GoRaml GoRaml.Spec

/-- After unwrapping, a declared type has the values it meant. -/
theorem valid_means {E : Env} {n m : Nat} {path : String} {f : FragRef} {s s' : St} (h : parseFromPath E n m path {} = (.ok f, s)) (hs : Straight s)
    {k : Nat} {frags frags' : List FragRef} (hf : frags.Perm (s.fragments.map (·.2))) (hf' : frags'.Perm (s.fragments.map (·.2)))
    (hr : unwrapShapes k frags frags' s = (.ok (), s')) {a : Addr} (ha : DeclaredType s a) {v : GoVal} (hv : GoValue v) :
    Valid E.toExt s' a v ↔ Means E.toExt s a v := by
  have hc := (c69_unwrapping_keeps_meaning E n m path f s s' h hs k hf hf' hr ha).2 v hv
  constructor
  · intro hval
    refine Classical.byContradiction fun hno => ?_
    obtain ⟨j, e, he⟩ := hc.2.2 hno
    exact (validate_sound E.toExt s' j a v hv).2 e he hval
  · intro hm
    obtain ⟨j, he⟩ := hc.1.2 hm
    exact (validate_sound E.toExt s' j a v hv).1 he

/-- A parsed model has no recursive types before it is unwrapped. -/
theorem parsed_plain {E : Env} {s : St} (hl : Load.Loaded E s) : Whole.Wf anyValues.plain (Whole.cleared s) := by
  refine Whole.loaded_wf hl (fun a sh ha hu => ?_) (fun _ _ _ => ⟨fun _ _ => trivial, fun _ _ _ _ _ _ => trivial, fun _ _ => trivial⟩) (fun _ _ _ _ => trivial)
  have hrec : ∀ x, sh ≠ .recursive x := fun x hx => by
    obtain ⟨b, hb, hbs⟩ := Option.bind_eq_some_iff.1 ha
    obtain ⟨sh', h1, h2, h3⟩ := hl.typed hb
    rw [hbs, hx] at h1
    cases h1
    exact Emb.kind_not_recursive h2
  cases sh <;> first | exact fun _ _ _ _ => trivial | trivial | exact absurd rfl (hu _) | exact absurd rfl (hrec _)

/-- After unwrapping, what a conversion looks at is finite, unless it meets a type that is left marked as visited. -/
theorem parsed_finite {E : Env} {n m : Nat} {path : String} {f : FragRef} {s s' : St} (h : parseFromPath E n m path {} = (.ok f, s))
    {k : Nat} {frags frags' : List FragRef} (hf : frags.Perm (s.fragments.map (·.2))) (hf' : frags'.Perm (s.fragments.map (·.2)))
    (hr : unwrapShapes k frags frags' s = (.ok (), s')) {a : Addr} (ha : DeclaredType s' a) (hv : ∀ y, SchemaReach s' a y → ¬ LeftVisited s' y) :
    ∀ y, SchemaReach s' a y → Whole.Fin s' y := by
  have hl := parsed_loaded E n m path f s h
  have hw := Whole.loaded_wf (K := anyValues) hl (fun _ _ _ h => fine_any h) (fun _ _ _ => ⟨fun _ _ => trivial, fun _ _ _ _ _ _ => trivial, fun _ _ => trivial⟩)
    (fun _ _ _ _ => trivial)
  obtain ⟨hh, hd⟩ := Whole.unwrapShapes_heads (parsed_plain hl) hw (Whole.loaded_there hl (perm_fragments hf)) (Whole.loaded_there hl (perm_fragments hf'))
    (fun e he => hf'.mem_iff.2 (List.mem_map_of_mem he)) (Whole.loaded_exts hl) hr
  exact fun y hy => Whole.Fin.reach hh hy ((hd a ha).resolve_left (hv a (.refl a))) hv

/-- C56, for files: after a successful parse and `UnwrapShapes`, every declared type converts, if the conversion meets no type that is left marked as visited and
no type that cannot be written. -/
theorem c56_declared_types_convert (E : Env) (n m : Nat) (path : String) (f : FragRef) (s s' : St) (h : parseFromPath E n m path {} = (.ok f, s))
    (k : Nat) {frags frags' : List FragRef} (hf : frags.Perm (s.fragments.map (·.2))) (hf' : frags'.Perm (s.fragments.map (·.2)))
    (hr : unwrapShapes k frags frags' s = (.ok (), s')) {a : Addr} (ha : DeclaredType s' a) {w : Wrap} (hw : w ≠ .unset)
    (hv : ∀ y, SchemaReach s' a y → ¬ LeftVisited s' y) (hwr : ∀ y q, SchemaReach s' a y → s'.shapeAt y = some q → Writable s' q) :
    ∃ n js, ∀ k, n ≤ k → convert w s' k a = .ok js := by
  have hfin := parsed_finite h hf hf' hr ha hv
  have hwm := (c61_model_kept E n m path f s h k hf hf').1
  rw [hr] at hwm
  obtain ⟨b, hb, hu⟩ : ∃ b, s'.base a = some b ∧ b.unwrapped = true := by
    cases hfin a (.refl a) with
    | intro h1 h2 _ => exact ⟨_, h1, h2⟩
  refine c56_conversion_succeeds hw hb hu (fun y hy => ?_) fun y hy => (hfin y hy).noInfinite
  obtain ⟨c, hc⟩ : ∃ c, s'.base y = some c := by
    cases hfin y hy with
    | intro h1 _ _ => exact ⟨_, h1⟩
  obtain ⟨q, hq, _⟩ := (hwm.wellFormed y c hc).1
  have hs : s'.shapeAt y = some q := by simp [St.shapeAt, hc, hq]
  exact ⟨q, hs, hwr y q hy hs⟩

/-- C73: the schema of a declared type, made after parsing and unwrapping, accepts exactly the values that the declarations in the files mean. -/
theorem c73_schema_means (E : Env) (n m : Nat) (path : String) (f : FragRef) (s s' : St) (h : parseFromPath E n m path {} = (.ok f, s)) (hs : Straight s)
    (k : Nat) {frags frags' : List FragRef} (hf : frags.Perm (s.fragments.map (·.2))) (hf' : frags'.Perm (s.fragments.map (·.2)))
    (hr : unwrapShapes k frags frags' s = (.ok (), s')) {a : Addr} (ha : DeclaredType s a) {w : Wrap} {j : Nat} {js : JS}
    (hc : convert w s' j a = .ok js) (hcv : Convertible E.toExt s' a) (hd : DistinctNames s' a) {v : GoVal} (hv : GoValue v)
    (hcm : Common E.toExt (Involved s' a) v) : SchemaValid E.toExt js.definitions js v ↔ Means E.toExt s a v :=
  (c50_same_values E.toExt hcv hd hc hcm).symm.trans (valid_means h hs hf hf' hr ha hv)

/-- C73, for more types: the schema accepts every value that the declarations mean. -/
theorem c73_schema_accepts (E : Env) (n m : Nat) (path : String) (f : FragRef) (s s' : St) (h : parseFromPath E n m path {} = (.ok f, s)) (hs : Straight s)
    (k : Nat) {frags frags' : List FragRef} (hf : frags.Perm (s.fragments.map (·.2))) (hf' : frags'.Perm (s.fragments.map (·.2)))
    (hr : unwrapShapes k frags frags' s = (.ok (), s')) {a : Addr} (ha : DeclaredType s a) {w : Wrap} {j : Nat} {js : JS}
    (hc : convert w s' j a = .ok js) (hcv : Covered E.toExt s' a) (hd : DistinctNames s' a) {v : GoVal} (hv : GoValue v)
    (hcm : Common E.toExt (Involved s' a) v) (hm : Means E.toExt s a v) : SchemaValid E.toExt js.definitions js v :=
  c50_schema_accepts E.toExt hcv hd hc hcm ((valid_means h hs hf hf' hr ha hv).2 hm)

/-- C73, there is a schema: after parsing and unwrapping a straight model, the conversion of a declared type whose types are in scope comes to an end with a schema, and
a longer run makes the same. -/
theorem c73_schema_exists (E : Env) (n m : Nat) (path : String) (f : FragRef) (s s' : St) (h : parseFromPath E n m path {} = (.ok f, s)) (hs : Straight s)
    (k : Nat) {frags frags' : List FragRef} (hf : frags.Perm (s.fragments.map (·.2))) (hf' : frags'.Perm (s.fragments.map (·.2)))
    (hr : unwrapShapes k frags frags' s = (.ok (), s')) {a : Addr} (ha : DeclaredType s a) {w : Wrap} (hw : w ≠ .unset) (hcv : Covered E.toExt s' a)
    (hm : MediaTypesNamed s' a) : ∃ n js, ∀ k, n ≤ k → convert w s' k a = .ok js := by
  have hld := parsed_loaded E n m path f s h
  have hwf := Whole.loaded_wf (K := anyValues) hld (fun _ _ _ h => fine_any h) (fun _ _ _ => ⟨fun _ _ => trivial, fun _ _ _ _ _ _ => trivial, fun _ _ => trivial⟩)
    (fun _ _ _ _ => trivial)
  have hcalm := Mean.unwrapShapes_calm (setup_parsed h hs) (parsed_oneEach h) hwf (Whole.loaded_there hld (perm_fragments hf))
    (Whole.loaded_there hld (perm_fragments hf')) (Whole.loaded_exts hld) hr
  refine c56_declared_types_convert E n m path f s s' h k hf hf' hr (c69_unwrapping_keeps_meaning E n m path f s s' h hs k hf hf' hr ha).1 hw
    (fun y _ ⟨b, hb, hv⟩ => ?_) fun y q hy hq => ?_
  · have := hcalm y b hb
    rw [hv] at this
    cases this
  · obtain ⟨q', hq', hc⟩ := hcv y hy
    rw [hq] at hq'
    cases hq'
    cases q with
    | json _ _ => exact hc.elim
    | file g => exact fun l hl => hm y g l hy hq hl
    | object g =>
      intro e he
      have := hc.2.delimited e he
      rw [this]
      simp only [String.length_append]
      have h1 : "/".length = 1 := rfl
      omega
    | _ => trivial

/-- What the types `Team` and `Words` of the example files look at. -/
def exTypesScope : List Addr := [9, 19, 20, 0, 14, 15, 16, 11, 21, 2, 6, 22, 7, 17, 18]

theorem exTypes_scope : exTypesScope.all (scopeAt exTypesUnwrapped exTypesScope) = true := by decide +kernel

theorem exTeam_common {a : Addr} (ha : a ∈ exTypesScope) {b l : String} (hb : ∀ c ∈ b.toList, c.val < 128) (hl : ∀ c ∈ l.toList, c.val < 128) :
    Common exTypesEnv.toExt (Involved exTypesUnwrapped a) (exTeam b l) := by
  have hn := (scope_noNumber ha exTypes_scope).1
  unfold exTeam
  refine .map _ (by simp) fun e he => ?_
  simp only [List.mem_cons, List.not_mem_nil, or_false] at he
  rcases he with rfl | rfl | rfl | rfl
  · exact .int 3 (by decide) (by decide) fun f hf => absurd hf (hn f)
  · exact .str _ hl
  · refine .map _ (by simp) fun e he => ?_
    simp only [List.mem_singleton] at he
    subst he
    exact .str _ hb
  · refine .map _ (by decide) fun e he => ?_
    simp only [List.mem_cons, List.not_mem_nil, or_false] at he
    rcases he with rfl | rfl
    · exact .str _ (by decide)
    · refine .map _ (by decide) fun e he => ?_
      simp only [List.mem_cons, List.not_mem_nil, or_false] at he
      rcases he with rfl | rfl
      · exact .str _ (by decide)
      · exact .nil

theorem exConverts {w : Wrap} {h : St} {n : Nat} {a : Addr} (hc : (match convert w h n a with | .ok _ => true | _ => false) = true) :
    ∃ js, convert w h n a = .ok js := by
  cases e : convert w h n a with
  | ok js => exact ⟨js, rfl⟩
  | err _ => rw [e] at hc; cases hc
  | panic _ => rw [e] at hc; cases hc
  | diverge => rw [e] at hc; cases hc

/-- A type of the example files is declared. -/
theorem exTypes_declared : DeclaredType exTypesModel 0 := by
  have hl : (exTypesModel.libs[0]?).map (fun l => l.types.map (·.2) |>.contains 0) = some true := by decide +kernel
  have hf : (exTypesModel.fragments.map (·.2)).contains (.library 0) = true := by decide +kernel
  obtain ⟨l, k1, k2⟩ := Option.map_eq_some_iff.1 hl
  simp only [List.contains_eq_mem, List.mem_map, decide_eq_true_eq] at k2 hf
  obtain ⟨e, k3, k5⟩ := k2
  obtain ⟨⟨k, g⟩, k4, rfl⟩ := hf
  have := DeclaredType.type k4 k1 k3
  rwa [k5] at this

/-- The hypotheses of C56 for files and of `c73_schema_exists` are met by types of two files that are built on each other, one of them recursive. -/
example : parseFromPath exTypesEnv 20 20 "a.raml" {} = (.ok (.library 0), exTypesModel) ∧ Straight exTypesModel ∧
    unwrapShapes 20 (exTypesModel.fragments.map (·.2)) (exTypesModel.fragments.map (·.2)) exTypesModel = (.ok (), exTypesUnwrapped) ∧
    DeclaredType exTypesModel 0 ∧ DeclaredType exTypesUnwrapped 0 ∧ Covered exTypesEnv.toExt exTypesUnwrapped 0 ∧ MediaTypesNamed exTypesUnwrapped 0 ∧
    (∀ y, SchemaReach exTypesUnwrapped 0 y → ¬ LeftVisited exTypesUnwrapped y) ∧
    ∀ y q, SchemaReach exTypesUnwrapped 0 y → exTypesUnwrapped.shapeAt y = some q → Writable exTypesUnwrapped q := by
  have h1 : parseFromPath exTypesEnv 20 20 "a.raml" {} = (.ok (.library 0), exTypesModel) := exParses (by decide +kernel)
  have h2 : unwrapShapes 20 (exTypesModel.fragments.map (·.2)) (exTypesModel.fragments.map (·.2)) exTypesModel = (.ok (), exTypesUnwrapped) := exUnwraps (by decide +kernel)
  have m0 : (0 : Addr) ∈ exTypesScope := by decide
  have hno : ∀ y ∈ exTypesScope, ((match exTypesUnwrapped.shapeAt y with | some (.file _) => false | some (.json _ _) => false | _ => true) &&
      (match exTypesUnwrapped.base y with | some b => !b.visited | none => false)) = true := by decide +kernel
  have hcv := covered_of_convertible (scope_convertible exTypesEnv.toExt m0 exTypes_scope)
  refine ⟨h1, exTypes_straight, h2, exTypes_declared, (c69_unwrapping_keeps_meaning _ _ _ _ _ _ _ h1 exTypes_straight _ .rfl .rfl h2 exTypes_declared).1, hcv,
    fun y f l hy hs _ => ?_, fun y hy ⟨b, hb, hv⟩ => ?_, fun y q hy hs => ?_⟩
  · have := hno y (scope_mem m0 exTypes_scope hy)
    rw [hs] at this
    cases this
  · have := hno y (scope_mem m0 exTypes_scope hy)
    rw [hb, Bool.and_eq_true] at this
    simp [hv] at this
  · have := hno y (scope_mem m0 exTypes_scope hy)
    obtain ⟨q', hq', hc⟩ := hcv y hy
    rw [hs] at hq'
    cases hq'
    rw [hs] at this
    cases q with
    | json _ _ => cases this
    | file _ => cases this
    | object g =>
      intro e he
      rw [hc.2.delimited e he]
      simp only [String.length_append]
      have h1 : "/".length = 1 := rfl
      omega
    | _ => trivial

/-- A file type with an empty list of media types. -/
def exNoMedia : List (String × String × YNode) := [
  ("a.raml", "#%RAML 1.0 Library\na", exDoc [("types", exMap [("F", exMap [("type", .str "file"), ("fileTypes", .mk .sequence "!!seq" "" [])])])])]

/-- C56, why file types have to list something: here a document parses, unwraps and validates without an error, and the conversion of its type panics. -/
theorem c56_no_media_types :
    (parseWith (exFilesEnv exNoMedia) {} 20 20 "a.raml" { withUnwrap := true, withValidate := true } {}).1 = .ok (.library 0) ∧
    ∃ p, convert .raml (parseWith (exFilesEnv exNoMedia) {} 20 20 "a.raml" { withUnwrap := true, withValidate := true } {}).2 20 0 = .panic p :=
  ⟨by decide +kernel, by
    have : (match convert .raml (parseWith (exFilesEnv exNoMedia) {} 20 20 "a.raml" { withUnwrap := true, withValidate := true } {}).2 20 0 with
      | .panic _ => true | _ => false) = true := by decide +kernel
    split at this
    · rename_i p hp
      exact ⟨p, hp⟩
    · cases this⟩

/-- The hypotheses of C73 are met by types of two files that are built on each other, one of them recursive; the schemas tell values apart. -/
example : ∃ js, convert .raml exTypesUnwrapped 20 0 = .ok js ∧ Convertible exTypesEnv.toExt exTypesUnwrapped 0 ∧ DistinctNames exTypesUnwrapped 0 ∧
    SchemaValid exTypesEnv.toExt js.definitions js (exTeam "Ann" "red") ∧ ¬ SchemaValid exTypesEnv.toExt js.definitions js (exTeam "Annie" "red") ∧
    ¬ SchemaValid exTypesEnv.toExt js.definitions js (exTeam "Ann" "r") := by
  have h1 : parseFromPath exTypesEnv 20 20 "a.raml" {} = (.ok (.library 0), exTypesModel) := exParses (by decide +kernel)
  have h2 : unwrapShapes 20 (exTypesModel.fragments.map (·.2)) (exTypesModel.fragments.map (·.2)) exTypesModel = (.ok (), exTypesUnwrapped) := exUnwraps (by decide +kernel)
  have d0 := exTypes_declared
  have m0 : (0 : Addr) ∈ exTypesScope := by decide
  obtain ⟨js, hjs⟩ := exConverts (w := .raml) (h := exTypesUnwrapped) (n := 20) (a := 0) (by decide +kernel)
  have hcv := scope_convertible exTypesEnv.toExt m0 exTypes_scope
  have hd : DistinctNames exTypesUnwrapped 0 := scope_distinct m0 exTypes_scope (by decide +kernel)
  have c0 := (c69_unwrapping_keeps_meaning _ _ _ _ _ _ _ h1 exTypes_straight _ .rfl .rfl h2 d0).2
  have key : ∀ {b l : String}, (∀ c ∈ b.toList, c.val < 128) → (∀ c ∈ l.toList, c.val < 128) →
      (SchemaValid exTypesEnv.toExt js.definitions js (exTeam b l) ↔ Means exTypesEnv.toExt exTypesModel 0 (exTeam b l)) := fun hb hl =>
    c73_schema_means _ _ _ _ _ _ _ h1 exTypes_straight _ .rfl .rfl h2 d0 hjs hcv hd (exTeam_value _ _) (exTeam_common m0 hb hl)
  refine ⟨js, hjs, hcv, hd, (key (by decide) (by decide)).2 ?_, fun hc => ?_, fun hc => ?_⟩
  · exact (c0 _ (exTeam_value _ _)).1.1 ⟨20, by decide +kernel⟩
  · exact (c0 _ (exTeam_value _ _)).2.1 ⟨20, "length must be less than", by decide +kernel⟩ ((key (by decide) (by decide)).1 hc)
  · exact (c0 _ (exTeam_value _ _)).2.1 ⟨20, "length must be greater than", by decide +kernel⟩ ((key (by decide) (by decide)).1 hc)

end GoRaml.Props
