import Verif.Lemmas.KinStay
import Verif.Props.UnwrapAll
import Verif.Props.Decode

/-!
# What inherited restrictions add up to after unwrapping (C66)
-/

namespace GoRaml.Props

open GoRaml GoRaml.Spec

theorem parsed_oneEach {E : Env} {n m : Nat} {path : String} {f : FragRef} {s : St} (h : parseFromPath E n m path {} = (.ok f, s)) : Kin.OneEach s := fun l hl c => by
  obtain ⟨d, _, h1, h2, _⟩ := c63_libraries E n m path f s h l hl
  have key : ∀ {R : YNode → String → Addr → Prop} {k : String} {es : List (String × YNode)} {x : OMap Addr}, SectionReads R k es x → (x.map (·.1)).Nodup := by
    intro R k es x h
    unfold SectionReads Reads at h
    split at h
    · rw [h]; simp
    · obtain ⟨l, _, h⟩ := h; rw [h]; exact Read.nodup_filled l
  cases c
  · exact key h1
  · exact key h2

/-- C66: after parsing and unwrapping, a declared scalar type accepts exactly the values that all declarations of its line accept: its own and those of all the types
it is built on, through parents, includes and aliases, across any number of files; and it is still declared. -/
theorem c66_restrictions_add_up (E : Env) (n m : Nat) (path : String) (f : FragRef) (s s' : St) (h : parseFromPath E n m path {} = (.ok f, s)) (k : Nat)
    {frags frags' : List FragRef} (hf : frags.Perm (s.fragments.map (·.2))) (hf' : frags'.Perm (s.fragments.map (·.2)))
    (hr : unwrapShapes k frags frags' s = (.ok (), s')) {a : Addr} {l : List Addr} (ha : DeclaredType s a) (hl : Line s a l)
    (hd : ∀ x, Descends s a x → PlainDecl s x) (hp : l.Pairwise fun c c' => ¬ (HasPattern s c ∧ HasPattern s c'))
    (hn : ∀ x, Descends s a x → NotFirstOfMany s x) (hv : ∀ x, Descends s a x → ¬ LeftVisited s' x) :
    DeclaredType s' a ∧ ∀ v, Accepts E.toExt s' a v ↔ ∀ c ∈ l, Accepts E.toExt s c v := by
  have hld := parsed_loaded E n m path f s h
  have hw := Whole.loaded_wf (K := anyValues) hld (fun _ _ _ h => fine_any h) (fun _ _ _ => ⟨fun _ _ => trivial, fun _ _ _ _ _ _ => trivial, fun _ _ => trivial⟩)
    (fun _ _ _ _ => trivial)
  have r := Whole.unwrapShapes_end hw (Whole.loaded_there hld (perm_fragments hf)) (Whole.loaded_there hld (perm_fragments hf'))
    (fun e he => hf'.mem_iff.2 (List.mem_map_of_mem he)) (Whole.loaded_exts hld) hr
  have hown := Kin.onTheirOwn (s := s) (by have := Apart.parsed_own (E := E) (n := n) (m := m) (path := path); rw [h] at this; exact this) (Kin.DeclaredType.referred ha)
  have ha' := Kin.unwrapShapes_declared (Kin.family_closed hld.wellFormed hl hd hp hown) (parsed_oneEach h) hw (Whole.loaded_there hld (perm_fragments hf))
    (Whole.loaded_there hld (perm_fragments hf')) (Whole.loaded_exts hld) rfl (Kin.family_inv hld.wellFormed hd hown hn) hr
    (fun x hxD hvis => hv x hxD (by
      unfold visitedAt at hvis
      obtain ⟨b, h3, h4⟩ := Option.map_eq_some_iff.1 hvis
      exact ⟨b, h3, h4⟩)) (Descends.refl a) ha
  exact ⟨ha', fun v => Kin.unwrapShapes_line hld.wellFormed hl hd hp hown hn hw (Whole.loaded_there hld (perm_fragments hf)) (Whole.loaded_there hld (perm_fragments hf'))
    (Whole.loaded_exts hld) hr hv (r.declared a ha').1 E.toExt v⟩

/-! ## An example -/

/-- A YAML sequence of strings. -/
def exStrs (l : List String) : YNode := .mk .sequence "!!seq" "" (l.map .str)

/-- A line of string types with enums, an alias and a length, and types that use them. -/
def exLevels : List (String × String × YNode) := [
  ("a.raml", "#%RAML 1.0 Library\na", exDoc [
    ("types", exMap [
      ("Long", exMap [("type", .str "Other"), ("minLength", .str "4")]),
      ("Other", .str "Some"),
      ("Some", exMap [("type", .str "Level"), ("enum", exStrs ["low", "mid", "lowest"])]),
      ("Level", exMap [("type", .str "string"), ("enum", exStrs ["low", "mid", "high", "lowest"])]),
      ("Box", exMap [("properties", exMap [("level", .str "Level")])]),
      ("List", .str "Some[]"),
      ("Either", .str "Long | nil")])])]

/-- These files; sequences decode to lists, and the number 4 is known. -/
def exLevelsEnv : Env :=
  { exFilesEnv exLevels with
    decodeUint := fun n => if n.value = "4" then some (some 4) else none
    decodeAny := fun n => some (if n.tag = "!!seq" then .arr (n.content.map fun x => .str x.value) else .str n.value) }

/-- The parsed model. -/
def exLevelsModel : St := (parseFromPath exLevelsEnv 20 20 "a.raml" {}).2

/-- What a type is built on, computed. -/
def exNext (s : St) (d : Addr) : Option Addr :=
  (s.base d).bind fun b =>
    match b.alias, b.link, s.slice b.inherits with
    | some t, _, _ => some t
    | none, some k, _ => (s.dts[k]?).bind (·.shape)
    | none, none, [p] => some p
    | _, _, _ => none

theorem exNext_of {s : St} {d x : Addr} (h : BuiltOn s d x) : exNext s d = some x := by
  cases h with
  | «alias» h1 h2 => simp [exNext, h1, h2]
  | included h1 h2 h3 h4 h5 => simp [exNext, h1, h2, h3, h4, h5]
  | parent h1 h2 h3 h4 => simp [exNext, h1, h2, h3, h4]

/-- The list is closed under what types are built on. -/
theorem descends_in {s : St} {L : List Addr} (hL : L.all (fun x => ((exNext s x).map L.contains).getD true) = true) {a x : Addr} (ha : a ∈ L) (h : Descends s a x) : x ∈ L := by
  induction h with
  | refl => exact ha
  | step _ hx ih =>
    have := List.all_eq_true.1 hL _ ih
    rw [exNext_of hx] at this
    simpa using this

/-- A string type without facet definitions, computed. -/
def exPlainB (s : St) (x : Addr) : Bool :=
  match s.base x with
  | some b =>
    (match b.shape with
    | some (.string _) => true
    | _ => false) && (s.props b.facetDefs).isEmpty && !b.unwrapped && !b.visited
  | none => false

theorem exPlainB_plain {s : St} {x : Addr} (h : exPlainB s x = true) : PlainDecl s x := by
  unfold exPlainB at h
  cases hb : s.base x with
  | none => rw [hb] at h; cases h
  | some b =>
    rw [hb] at h
    simp only [Bool.and_eq_true, List.isEmpty_iff, Bool.not_eq_true'] at h
    obtain ⟨⟨⟨h1, h2⟩, _⟩, _⟩ := h
    cases hs : b.shape with
    | none => rw [hs] at h1; cases h1
    | some sh =>
      rw [hs] at h1
      cases sh <;> first | cases h1 | skip
      rename_i f
      refine ⟨⟨.string f, by simp [St.shapeAt, hb, hs], trivial⟩, fun b' hb' => ?_, fun b' e hb' he => ?_⟩
      · cases hb'.symm.trans hb; exact h2
      · cases hb'.symm.trans hb; rw [hs] at he; cases he

/-- The line of `Long`. -/
theorem exLevels_line : Line exLevelsModel 0 [0, 2, 3] := by
  have hb : ∀ a, a < exLevelsModel.bases.length → ∃ b, exLevelsModel.base a = some b := fun a ha => ⟨_, List.getElem?_eq_getElem ha⟩
  have key : exLevelsModel.bases.map (fun b => (b.alias, b.link, exLevelsModel.slice b.inherits)) =
      [(none, none, [1]), (some 2, none, []), (none, none, [3]), (none, none, []), (none, none, []), (some 3, none, []), (none, none, []), (none, none, []),
       (some 2, none, []), (some 0, none, []), (none, none, [])] := by decide +kernel
  have at_ : ∀ (a : Nat) (al : Option Addr) (lk : Option Nat) (p : List Addr), ((exLevelsModel.bases.map (fun b => (b.alias, b.link, exLevelsModel.slice b.inherits)))[a]? = some (al, lk, p)) →
      ∃ b, exLevelsModel.base a = some b ∧ b.alias = al ∧ b.link = lk ∧ exLevelsModel.slice b.inherits = p := fun a al lk p h => by
    rw [List.getElem?_map] at h
    obtain ⟨b, h1, h2⟩ := Option.map_eq_some_iff.1 h
    simp only [Prod.mk.injEq] at h2
    exact ⟨b, h1, h2⟩
  rw [key] at at_
  obtain ⟨b0, k0, a0, l0, p0⟩ := at_ 0 _ _ _ rfl
  obtain ⟨b1, k1, a1, l1, p1⟩ := at_ 1 _ _ _ rfl
  obtain ⟨b2, k2, a2, l2, p2⟩ := at_ 2 _ _ _ rfl
  obtain ⟨b3, k3, a3, l3, p3⟩ := at_ 3 _ _ _ rfl
  exact .on k0 a0 (.parent k0 a0 l0 p0) (.alias k1 a1 (.on k2 a2 (.parent k2 a2 l2 p2) (.root k3 a3 l3 p3)))

/-- No pattern, computed. -/
theorem exLevels_noPattern {s : St} {a : Addr} (h : ((s.base a).map fun b => match b.shape with | some (.string f) => f.pattern.isNone | _ => true) = some true) :
    ¬ HasPattern s a := by
  rintro ⟨f, h1, h2⟩
  obtain ⟨b, hb, hs⟩ := base_of_shape h1
  rw [hb] at h
  simp only [hs, Option.map_some, Option.some.injEq, Option.isNone_iff_eq_none] at h
  exact h2 h

/-- The model after unwrapping. -/
def exLevelsUnwrapped : St :=
  (unwrapShapes 20 (exLevelsModel.fragments.map (·.2)) (exLevelsModel.fragments.map (·.2)) exLevelsModel).2

/-- One step decides for a string type. -/
theorem exAccepts_string {E : Ext} {h : St} {a : Addr} {v : GoVal} (hs : ∃ f, h.shapeAt a = some (.string f)) : Accepts E h a v ↔ validate E h 1 a v = .ok () := by
  obtain ⟨f, hs⟩ := hs
  constructor
  · rintro ⟨n, hn⟩
    cases n with
    | zero => cases hn
    | succ n => simpa only [validate, hs, validateShape] using hn
  · exact fun h => ⟨1, h⟩

theorem exString_of {h : St} {a : Addr} (hs : ((h.shapeAt a).map fun q => match q with | .string _ => true | _ => false) = some true) :
    ∃ f, h.shapeAt a = some (.string f) := by
  obtain ⟨q, h1, h2⟩ := Option.map_eq_some_iff.1 hs
  cases q <;> first | exact ⟨_, h1⟩ | cases h2

theorem exParses {E : Env} {n m : Nat} {p : String} {f : FragRef} (h : exResult (parseFromPath E n m p {}) = some f) :
    parseFromPath E n m p {} = (.ok f, (parseFromPath E n m p {}).2) := by
  cases hd : parseFromPath E n m p {} with
  | mk o t =>
    rw [hd] at h
    cases o <;> simp_all [exResult]

theorem exUnwraps {n : Nat} {l l' : List FragRef} {s : St} (h : (unwrapShapes n l l' s).1 = .ok ()) : unwrapShapes n l l' s = (.ok (), (unwrapShapes n l l' s).2) := by
  rw [← h]

theorem exDeclares {h : St} {a : Addr} (hl : h.fragments = [("a.raml", .library 0)] ∧ (h.libs[0]?).map (fun l => l.types.map (·.2) |>.contains a) = some true) :
    DeclaredType h a := by
  obtain ⟨l, h1, h2⟩ := Option.map_eq_some_iff.1 hl.2
  simp only [List.contains_eq_mem, List.mem_map, decide_eq_true_eq] at h2
  obtain ⟨e, h3, rfl⟩ := h2
  exact .type (k := "a.raml") (i := 0) (by rw [hl.1]; simp) h1 h3

/-- The hypotheses of C66 are met: `Long` accepts what is long, one of `Some` and one of `Level`. -/
example :
    parseFromPath exLevelsEnv 20 20 "a.raml" {} = (.ok (.library 0), exLevelsModel) ∧
    unwrapShapes 20 (exLevelsModel.fragments.map (·.2)) (exLevelsModel.fragments.map (·.2)) exLevelsModel = (.ok (), exLevelsUnwrapped) ∧
    DeclaredType exLevelsModel 0 ∧ Line exLevelsModel 0 [0, 2, 3] ∧ (∀ x, Descends exLevelsModel 0 x → PlainDecl exLevelsModel x) ∧
    [0, 2, 3].Pairwise (fun c c' => ¬ (HasPattern exLevelsModel c ∧ HasPattern exLevelsModel c')) ∧
    (∀ x, Descends exLevelsModel 0 x → NotFirstOfMany exLevelsModel x) ∧ (∀ x, Descends exLevelsModel 0 x → ¬ LeftVisited exLevelsUnwrapped x) ∧
    Accepts exLevelsEnv.toExt exLevelsUnwrapped 0 (.str "lowest") ∧ ¬ Accepts exLevelsEnv.toExt exLevelsUnwrapped 0 (.str "low") ∧
    ¬ Accepts exLevelsEnv.toExt exLevelsUnwrapped 0 (.str "high") ∧ Accepts exLevelsEnv.toExt exLevelsModel 0 (.str "high") := by
  have hin : ∀ x, Descends exLevelsModel 0 x → x ∈ [0, 1, 2, 3] := fun x => descends_in (by decide +kernel) (by simp)
  have hpl : [0, 1, 2, 3].all (exPlainB exLevelsModel) = true := by decide +kernel
  have hno : ∀ x ∈ [0, 2, 3], ¬ HasPattern exLevelsModel x := by
    have : [0, 2, 3].all (fun a => ((exLevelsModel.base a).map fun b => match b.shape with | some (.string f) => f.pattern.isNone | _ => true) == some true) = true := by
      decide +kernel
    exact fun x hx => exLevels_noPattern (by simpa using List.all_eq_true.1 this x hx)
  have hsl : exLevelsModel.slices = [[3], [1], [9, 10]] := by decide +kernel
  have hvis : [0, 1, 2, 3].all (fun a => (exLevelsUnwrapped.base a).map (·.visited) == some false) = true := by decide +kernel
  refine ⟨exParses (by decide +kernel), exUnwraps (by decide +kernel), exDeclares (by decide +kernel), exLevels_line,
    fun x hx => exPlainB_plain (List.all_eq_true.1 hpl x (hin x hx)), ?_, fun x hx l hl y m e => ?_, fun x hx => ?_,
    (exAccepts_string (exString_of (by decide +kernel))).2 (by decide +kernel), fun h => ?_, fun h => ?_, (exAccepts_string (exString_of (by decide +kernel))).2 (by decide +kernel)⟩
  · simp [hno]
  · have := hin x hx
    rw [hsl] at hl
    simp only [List.mem_cons, List.not_mem_nil, or_false] at hl this
    rcases hl with rfl | rfl | rfl <;> simp at e
    exact absurd e.1 (by rcases this with rfl | rfl | rfl | rfl <;> decide)
  · rintro ⟨b, h1, h2⟩
    have := List.all_eq_true.1 hvis x (hin x hx)
    simp [h1, h2] at this
  · exact absurd ((exAccepts_string (exString_of (by decide +kernel))).1 h) (by decide +kernel)
  · exact absurd ((exAccepts_string (exString_of (by decide +kernel))).1 h) (by decide +kernel)

/-! ## What the provisos are for -/

/-- A type with a pattern, and one built on it that has another pattern. -/
def exPatterns : List (String × String × YNode) := [
  ("a.raml", "#%RAML 1.0 Library\na", exDoc [
    ("types", exMap [
      ("Base", exMap [("type", .str "string"), ("pattern", .str "a")]),
      ("Child", exMap [("type", .str "Base"), ("pattern", .str "b")])])])]

/-- A pattern matches itself only. -/
def exPatternsEnv : Env := { exFilesEnv exPatterns with reMatch := fun p t => p == t, reCompiles := fun _ => true }

/-- Parsed and unwrapped. -/
def exPatternsUnwrapped : St := (parseWith exPatternsEnv {} 20 20 "a.raml" { withUnwrap := true } {}).2

/-- Patterns do not add up: the pattern of a child replaces the one of its parent, so the child accepts what its parent rejects. -/
theorem c66_pattern_replaced :
    (parseWith exPatternsEnv {} 20 20 "a.raml" { withUnwrap := true } {}).1 = .ok (.library 0) ∧
    exPatternsUnwrapped.libs.map (·.types) = [[("Base", 0), ("Child", 1)]] ∧ ((exPatternsUnwrapped.base 1).map fun b => exPatternsUnwrapped.slice b.inherits) = some [0] ∧
    Accepts exPatternsEnv.toExt exPatternsUnwrapped 1 (.str "b") ∧ ¬ Accepts exPatternsEnv.toExt exPatternsUnwrapped 0 (.str "b") := by
  refine ⟨by decide +kernel, by decide +kernel, by decide +kernel, (exAccepts_string (exString_of (by decide +kernel))).2 (by decide +kernel), fun h => ?_⟩
  exact absurd ((exAccepts_string (exString_of (by decide +kernel))).1 h) (by decide +kernel)

/-- A boolean type with an enum, and another name of it. -/
def exYes : List (String × String × YNode) := [
  ("a.raml", "#%RAML 1.0 Library\na", exDoc [
    ("types", exMap [
      ("Yes", exMap [("type", .str "boolean"), ("enum", .mk .sequence "!!seq" "" [.mk .scalar "!!bool" "true" []])]),
      ("Also", .str "Yes")])])]

/-- Scalars in lists are booleans. -/
def exYesEnv : Env := { exFilesEnv exYes with decodeAny := fun n => some (.bool (n.value == "true")) }

/-- Parsed and unwrapped. -/
def exYesUnwrapped : St := (parseWith exYesEnv {} 20 20 "a.raml" { withUnwrap := true } {}).2

/-- An alias of a boolean type does not have its enum: it accepts what the type rejects. -/
theorem c66_boolean_alias :
    (parseWith exYesEnv {} 20 20 "a.raml" { withUnwrap := true } {}).1 = .ok (.library 0) ∧
    exYesUnwrapped.libs.map (·.types) = [[("Yes", 0), ("Also", 1)]] ∧ ((parseFromPath exYesEnv 20 20 "a.raml" {}).2.base 1).map (·.alias) = some (some 0) ∧
    Accepts exYesEnv.toExt exYesUnwrapped 1 (.bool false) ∧ ¬ Accepts exYesEnv.toExt exYesUnwrapped 0 (.bool false) := by
  refine ⟨by decide +kernel, by decide +kernel, by decide +kernel, ⟨1, by decide +kernel⟩, ?_⟩
  rintro ⟨n, hn⟩
  have hs : ∃ e, exYesUnwrapped.shapeAt 0 = some (.boolean e) := by
    have : ((exYesUnwrapped.shapeAt 0).map fun q => match q with | .boolean _ => true | _ => false) = some true := by decide +kernel
    obtain ⟨q, h1, h2⟩ := Option.map_eq_some_iff.1 this
    cases q <;> first | exact ⟨_, h1⟩ | cases h2
  obtain ⟨e, hs⟩ := hs
  cases n with
  | zero => cases hn
  | succ n =>
    have : validate exYesEnv.toExt exYesUnwrapped 1 0 (.bool false) = .ok () := by simpa only [validate, hs, validateShape] using hn
    exact absurd this (by decide +kernel)

end GoRaml.Props
