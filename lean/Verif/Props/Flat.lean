import Verif.Lemmas.FlatAll
import Verif.Lemmas.ApartResolve
import Verif.Props.Decode
import Verif.Props.InFiles
import Verif.Props.UnwrapAll
import Verif.Props.Verdict

/-!
# Types that are not built on others can be unwrapped (C77)
-/

namespace GoRaml.Props

open GoRaml GoRaml.Spec

section
variable (E : Env) (n m : Nat) (path : String) (f : FragRef) (s : St) (h : parseFromPath E n m path {} = (.ok f, s)) {frags frags' : List FragRef}
  (hf : frags.Perm (s.fragments.map (·.2))) (hf' : frags'.Perm (s.fragments.map (·.2)))

include h

theorem flat_start (hp : NoInheritance s) : Flat.Start s := by
  have hl := parsed_loaded E n m path f s h
  have hi : Apart.I s := by have := Apart.parsed_own (E := E) (n := n) (m := m) (path := path); rw [h] at this; exact this
  have isome : ∀ {y : Addr}, IsBase s y → (s.base y).isSome := fun hy => by
    obtain ⟨b, hb⟩ := Load.isBase_base hy
    rw [hb]; rfl
  refine ⟨fun a b hb => ?_, fun a y hr => isome ?_, fun a b t hb ht => isome ((hl.w.base a b hb).alias t ht), hp, hi.fresh⟩
  · obtain ⟨q, h1, _, h3⟩ := hl.typed hb
    exact ⟨q, h1, fun g hg => h3 (by rw [hg]; rfl)⟩
  · obtain ⟨q, h1, h2⟩ := hr
    obtain ⟨b, hb, hbs⟩ := base_of_shape h1
    obtain ⟨q', k1, k2⟩ := (hl.wellFormed a b hb).shape
    rw [hbs] at k1; cases k1
    have slice : ∀ p, ∀ x ∈ s.slice p, IsBase s x := fun p => Load.slices_isBase hl.w
    cases h2 with
    | items e => exact k2 y e
    | @property g p e =>
      cases hp' : g.properties with
      | none => rw [hp'] at e; cases e
      | some i =>
        obtain ⟨m, h3, h4⟩ := k2.1 i hp'
        rw [hp'] at e
        simp only [St.props, h3, Option.getD_some, Option.bind_some] at e
        exact h4 p e
    | @pattern g p e =>
      cases hp' : g.patternProperties with
      | none => rw [hp'] at e; cases e
      | some i =>
        obtain ⟨m, h3, h4⟩ := k2.2 i hp'
        rw [hp'] at e
        simp only [St.patProps, h3, Option.getD_some, Option.bind_some] at e
        exact h4 p e
    | member e => exact slice _ _ e

theorem flat_named : Flat.Named s := fun l hl => by
  obtain ⟨d, _, h1, h2, _⟩ := c63_libraries E n m path f s h l hl
  have key : ∀ {R : YNode → String → Addr → Prop} {k : String} {es : List (String × YNode)} {x : OMap Addr}, SectionReads R k es x → (x.map (·.1)).Nodup := by
    intro R k es x hs
    unfold SectionReads Reads at hs
    split at hs
    · subst hs; exact List.nodup_nil
    · obtain ⟨l, _, rfl⟩ := hs
      exact Read.nodup_filled l
  exact ⟨key h2, key h1⟩

omit h in
theorem mem_filled {α : Type} (l : List (String × α)) : ∀ {e}, e ∈ filled l → e ∈ l := by
  induction l using List.reverseRecOn with
  | nil => intro e h; cases h
  | append_singleton l x ih =>
    intro e h
    rw [Read.filled_snoc] at h
    rcases Whole.mem_omap_set h with h | rfl
    · exact List.mem_append_left _ (ih h)
    · simp

/-- The annotation types of a library have its location. -/
theorem flat_located {l : Lib} (hl : l ∈ s.libs) {e : String × Addr} (he : e ∈ l.annotationTypes) : ∃ b, s.base e.2 = some b ∧ b.location = l.location := by
  obtain ⟨d, _, _, h2, _⟩ := c63_libraries E n m path f s h l hl
  unfold SectionReads Reads at h2
  split at h2
  · rw [h2] at he; cases he
  · obtain ⟨x, h3, h4⟩ := h2
    obtain ⟨i, hi⟩ := List.mem_iff_getElem?.1 (mem_filled x (h4 ▸ he))
    have hi' := (List.getElem?_eq_some_iff.1 hi)
    have hy := h3.get (i := i) (h3.length_eq ▸ hi'.1) hi'.1
    simp only [List.get_eq_getElem, hi'.2] at hy
    obtain ⟨b, _, _, _, _, k1, _, k2, _⟩ := describes_parts hy.2
    exact ⟨b, k1, k2⟩

include hf hf'

theorem flat_unwrap {K : Whole.Par} [K.Rec] (hw : Whole.Wf K (Whole.cleared s)) (hp : NoInheritance s) :
    ∃ s1 s2 N, (Flat.U s s1 ∧ Whole.Wf K s1 ∧ Marked (Whole.There s1) s1 s2 ∧ NoneVisited s2 ∧ Whole.Wf K s2 ∧ s2.domainExts = s.domainExts) ∧
      (∀ d ∈ s2.domainExts, ∃ a b, d.definedBy = some a ∧ s2.base a = some b) ∧
      (∀ k i l e, (k, FragRef.library i) ∈ s.fragments → s.libs[i]? = some l → e ∈ l.annotationTypes →
        ∃ b t a, s2.base e.2 = some b ∧ OMap.get s2.fragAnnotationTypes b.location = some t ∧ OMap.get t b.name = some a) ∧
      ∀ k, N ≤ k → unwrapShapes k frags frags' s = unwrapDomainExtensions s2 := by
  have hl := parsed_loaded E n m path f s h
  have isome : ∀ {y : Addr}, IsBase s y → (s.base y).isSome := fun hy => by
    obtain ⟨b, hb⟩ := Load.isBase_base hy
    rw [hb]; rfl
  obtain ⟨s1, s2, N, ⟨i1, w1, mk, nv, st⟩, h1, h2, h3⟩ := Flat.unwrapShapes_flat (flat_start E n m path f s h hp) (flat_named E n m path f s h) hw (fs := frags) (fs' := frags') (fun x hx => by
    obtain ⟨k, hk⟩ := perm_fragments hf x hx
    have := hl.w.frags _ hk
    cases x with
    | library i =>
      obtain ⟨l, h1, _⟩ := this
      exact ⟨l, h1, fun e he => isome ((hl.w.lib i l h1).annotationTypes e he), fun e he => isome ((hl.w.lib i l h1).types e he)⟩
    | dataType i =>
      obtain ⟨d, h1, _⟩ := this
      obtain ⟨a, h2, h3⟩ := (hl.w.dt i d h1).shape
      exact ⟨d, a, h1, h2, isome h3⟩
    | namedExample i => trivial) fun x hx => hf.mem_iff.2 (hf'.mem_iff.1 hx)
  refine ⟨s1, s2, N, ⟨i1.u, w1, mk, nv, h2, h1⟩, fun d hd => ?_, fun k i l e hk hli he => ?_, h3⟩
  · obtain ⟨a, ha⟩ := Whole.loaded_exts hl d (h1 ▸ hd)
    obtain ⟨b, hb⟩ := Load.isBase_base (h2.exts d hd a ha)
    exact ⟨a, b, ha, hb⟩
  · obtain ⟨b, hb, hbl⟩ := flat_located E n m path f s h (List.mem_of_getElem? hli) he
    obtain ⟨b1, hb1, hn1, hl1⟩ := i1.u.name hb
    obtain ⟨_, _, hb2, _⟩ := mk.old _ _ hb1
    obtain ⟨t, a, k1, k2⟩ := st (.library i) (hf.mem_iff.2 (List.mem_map.2 ⟨_, hk, rfl⟩)) (l.location, b.name) ⟨i, l, rfl, hli, rfl, e, he, b, hb, rfl⟩
    refine ⟨_, t, a, hb2, ?_, ?_⟩
    · simp only [hl1, hbl]; exact k1
    · simp only [hn1]; exact k2

omit hf hf' in
theorem flat_wf : Whole.Wf anyValues (Whole.cleared s) :=
  Whole.loaded_wf (parsed_loaded E n m path f s h) (fun _ _ _ h => fine_any h) (fun _ _ _ => ⟨fun _ _ => trivial, fun _ _ _ _ _ _ => trivial, fun _ _ => trivial⟩)
    (fun _ _ _ _ => trivial)

omit h hf hf' in
/-- The last step, if the types of annotations are declared. -/
theorem flat_annotations {s2 : St} (ha : AnnotationTypesDeclared s) (h1 : s2.domainExts = s.domainExts) (h2 : ∀ d ∈ s2.domainExts, ∃ a b, d.definedBy = some a ∧ s2.base a = some b)
    (h3 : ∀ k i l e, (k, FragRef.library i) ∈ s.fragments → s.libs[i]? = some l → e ∈ l.annotationTypes →
      ∃ b t a, s2.base e.2 = some b ∧ OMap.get s2.fragAnnotationTypes b.location = some t ∧ OMap.get t b.name = some a) :
    ∃ e', unwrapDomainExtensions s2 = (.ok (), { s2 with domainExts := e' }) ∧ ∀ d ∈ e', d.definedBy ≠ none := by
  have known : ∀ d ∈ s2.domainExts, ∀ a, d.definedBy = some a → ∃ b t a', s2.base a = some b ∧ OMap.get s2.fragAnnotationTypes b.location = some t ∧ OMap.get t b.name = some a' :=
    fun d hd a hda => by
      obtain ⟨k, i, l, e, q1, q2, q3, rfl⟩ := ha d (h1 ▸ hd) a hda
      exact h3 k i l e q1 q2 q3
  obtain ⟨p1, p2, p3, e', p4, p5, _, p6, p7⟩ := Whole.unwrapDomainExtensions_run h2
  have hok : (unwrapDomainExtensions s2).1 = .ok () := by
    cases hr : (unwrapDomainExtensions s2).1 with
    | ok _ => rfl
    | err x =>
      obtain ⟨i, _, d, a, b, q1, q2, q3, q4⟩ := p3 x hr
      obtain ⟨b', t, a', r1, r2, _⟩ := known d (List.mem_of_getElem? q1) a q2
      rw [q3] at r1; cases r1
      rw [q4] at r2; cases r2
    | panic x => exact absurd hr (p1 x)
    | diverge => exact absurd hr p2
  refine ⟨e', Prod.ext hok p4, fun d' hd' => ?_⟩
  obtain ⟨i, hi⟩ := List.mem_iff_getElem?.1 hd'
  have hlen := congrArg List.length p5
  simp only [List.length_map] at hlen
  have hi' : i < s2.domainExts.length := hlen ▸ (List.getElem?_eq_some_iff.1 hi).1
  obtain ⟨a, q1, b, t, q2, q3, q4⟩ := p7 hok i (List.mem_range.2 hi') _ d' (List.getElem?_eq_getElem hi') hi
  obtain ⟨b', t', a', r1, r2, r3⟩ := known _ (List.getElem_mem hi') a q1
  rw [q2] at r1; cases r1
  rw [q3] at r2; cases r2
  rw [q4, r3]
  simp

/-- C77: if no type of the parsed files is built on another, `UnwrapShapes` ends without an error, whatever the order of the fragments and however the types refer
to each other.  The annotations still have types. -/
theorem c77_unwraps (hp : NoInheritance s) (ha : AnnotationTypesDeclared s) :
    ∃ N s', (∀ k, N ≤ k → unwrapShapes k frags frags' s = (.ok (), s')) ∧ ∀ d ∈ s'.domainExts, d.definedBy ≠ none := by
  obtain ⟨s1, s2, N, ⟨_, _, _, _, _, h1⟩, h2, h3, h4⟩ := flat_unwrap E n m path f s h hf hf' (flat_wf E n m path f s h) hp
  obtain ⟨e', r, q⟩ := flat_annotations s ha h1 h2 h3
  exact ⟨N, _, fun k hk => (h4 k hk).trans r, q⟩

/-- C77, whatever the annotations: it ends, and nothing can go wrong but that the type of an annotation is not found. -/
theorem c77_ends (hp : NoInheritance s) : ∃ N r s', (r = .ok () ∨ ∃ e, r = .err e) ∧ ∀ k, N ≤ k → unwrapShapes k frags frags' s = (r, s') := by
  obtain ⟨s1, s2, N, _, h2, _, h3⟩ := flat_unwrap E n m path f s h hf hf' (flat_wf E n m path f s h) hp
  obtain ⟨p1, p2, _⟩ := Whole.unwrapDomainExtensions_run h2
  refine ⟨N, (unwrapDomainExtensions s2).1, (unwrapDomainExtensions s2).2, ?_, fun k hk => h3 k hk⟩
  revert p1 p2
  generalize (unwrapDomainExtensions s2).1 = r
  intro p1 p2
  cases r with
  | ok _ => exact .inl rfl
  | err e => exact .inr ⟨e, rfl⟩
  | panic e => exact absurd rfl (p1 e)
  | diverge => exact absurd rfl p2

omit hf hf' in
/-- C77: if no file leads back to one that includes it, the types of annotations are declared. -/
theorem c77_annotation_types (hE : NoWayBack E) : AnnotationTypesDeclared s := by
  intro d hd a hda
  obtain ⟨a', h1, h2, -⟩ := c60_annotations_linked E n m path f s h d hd
  rw [hda] at h1; cases h1
  obtain ⟨-, hown⟩ := Load.parseFromPath_ok (K := Load.ownCtl) trivial (Load.ownRegs hE) (fun _ hx => ⟨hx.lib, hx.dt⟩) (fun _ _ hx => ⟨hx.lib, hx.dt⟩)
    ⟨fun i l hi => by simp at hi, fun i l hi => by simp at hi⟩ h
  have key : ∀ (i : Nat) (l : Lib) (k : String), s.libs[i]? = some l → OMap.get l.annotationTypes k = some a →
      ∃ k i l e, (k, FragRef.library i) ∈ s.fragments ∧ s.libs[i]? = some l ∧ e ∈ l.annotationTypes ∧ e.2 = a := by
    intro i l k hl hg
    exact ⟨_, i, l, _, OMap.mem_of_get (hown.lib i l hl), hl, OMap.mem_of_get hg, rfl⟩
  unfold getReferenced at h2
  split at h2
  · cases h2
  · rename_i i hi
    split at h2
    · cases h2
    · rename_i l hl
      rcases (c36_library_lookup s l _ _ _).1 h2 with h3 | ⟨_, _, ⟨p, j, _, h4⟩, h5⟩
      · exact key i l _ hl h3
      · exact key j _ _ h4 h5
  · split at h2
    · cases h2
    · rename_i d' hd'
      obtain ⟨_, ⟨p, j, _, h4⟩, h5⟩ := ((c36_data_type_lookup s d' _ _).1 _).1 h2
      exact key j _ _ h4 h5
  · cases h2

end

/-! ## A library without inheritance -/

/-- The shape has no parts. -/
def exNoParts (s : St) : Shape → Bool
  | .array f => f.items.isNone
  | .object f => (s.props f.properties).isEmpty && (s.patProps f.patternProperties).isEmpty
  | .union l _ => (s.slice l).isEmpty
  | _ => true

theorem exNoParts_refers {s : St} {a : Addr} {q : Shape} (hq : s.shapeAt a = some q) (h : exNoParts s q = true) (y : Addr) : ¬ Refers s a y := by
  rintro ⟨q', h1, h2⟩
  rw [hq] at h1; cases h1
  cases h2 with
  | items e => simp [exNoParts, e] at h
  | property e =>
    simp only [exNoParts, Bool.and_eq_true, List.isEmpty_iff] at h
    rw [h.1] at e; cases e
  | pattern e =>
    simp only [exNoParts, Bool.and_eq_true, List.isEmpty_iff] at h
    rw [h.2] at e; cases e
  | member e =>
    simp only [exNoParts, List.isEmpty_iff] at h
    rw [h] at e; cases e

/-- `NoInheritance` for one type, for examples. -/
def exFlatAt (s : St) (b : Base) : Bool :=
  b.link.isNone && (s.slice b.inherits).isEmpty && (s.props b.facetDefs).isEmpty &&
    match b.alias with
    | none => true
    | some t =>
      match b.shape, s.shapeAt t with
      | some q, some u => Kind q = Kind u && exNoParts s q
      | _, _ => false

theorem exFlat {s : St} (h : s.bases.all (exFlatAt s) = true) : NoInheritance s := by
  have key : ∀ {a b}, s.base a = some b → exFlatAt s b = true := fun hb => List.all_eq_true.1 h _ (List.mem_of_getElem? hb)
  refine ⟨fun a b hb => ?_, fun a b hb => ?_, fun a b t hb ht => ?_⟩ <;> have k := key hb <;>
    simp only [exFlatAt, Bool.and_eq_true, Option.isNone_iff_eq_none, List.isEmpty_iff] at k
  · exact ⟨k.1.1.1, k.1.1.2⟩
  · exact k.1.2
  · have k := k.2
    rw [ht] at k
    simp only at k
    split at k
    · rename_i q u h1 h2
      simp only [Bool.and_eq_true, decide_eq_true_eq] at k
      exact ⟨⟨q, u, h1, h2, k.1⟩, exNoParts_refers (by simp [St.shapeAt, hb, h1]) k.2⟩
    · cases k

/-- Objects, arrays, unions and aliases that refer to each other in cycles. -/
def exCycles : List (String × YNode) := [
  ("Tree", exMap [("properties", exMap [("left?", .str "Tree"), ("label", .str "Name"), ("kids", .str "Forest"), ("other", .str "Either")])]),
  ("Forest", .str "Tree[]"),
  ("Either", .str "Forest | Name | nil"),
  ("Again", .str "Either"),
  ("Same", .str "Again"),
  ("Name", exMap [("type", .str "string"), ("minLength", .mk .scalar "!!int" "2" [])])]

/-- C77 for a library. -/
theorem exFlat_unwraps {types : List (String × YNode)} (h1 : exResult (parseFromPath (exLibEnv types) 20 20 "a.raml" {}) = some (.library 0)) (h2 : NoInheritance (exLibModel types))
    (h3 : (exLibModel types).domainExts = []) :
    ∃ N s', ∀ k, N ≤ k → unwrapShapes k ((exLibModel types).fragments.map (·.2)) ((exLibModel types).fragments.map (·.2)) (exLibModel types) = (.ok (), s') :=
  (c77_unwraps _ _ _ _ _ _ (exParses h1) (.refl _) (.refl _) h2 (fun d hd => by rw [show (parseFromPath (exLibEnv types) 20 20 "a.raml" {}).2.domainExts = [] from h3] at hd; cases hd)).imp fun _ h => h.imp fun _ h => h.1

/-- The hypotheses of C77 are met: the types refer to each other in cycles and through aliases. -/
example : exResult (parseFromPath (exLibEnv exCycles) 20 20 "a.raml" {}) = some (.library 0) ∧ NoInheritance (exLibModel exCycles) ∧ (exLibModel exCycles).domainExts = [] ∧
    (exLibModel exCycles).bases.length = 14 ∧ (exLibModel exCycles).bases.any (fun b => b.alias.isSome) = true ∧
    ∃ N s', ∀ k, N ≤ k → unwrapShapes k ((exLibModel exCycles).fragments.map (·.2)) ((exLibModel exCycles).fragments.map (·.2)) (exLibModel exCycles) = (.ok (), s') := by
  have h1 : exResult (parseFromPath (exLibEnv exCycles) 20 20 "a.raml" {}) = some (.library 0) := by decide +kernel
  have h2 : NoInheritance (exLibModel exCycles) := exFlat (by decide +kernel)
  have h3 : (exLibModel exCycles).domainExts = [] := by decide +kernel
  exact ⟨h1, h2, h3, by decide +kernel, by decide +kernel, exFlat_unwraps h1 h2 h3⟩

/-! ## With inheritance -/

/-- Two recursive object types, and a type that has both as parents. -/
def exBothParents : List (String × YNode) := [
  ("A", exMap [("properties", exMap [("r", .str "Both | nil")])]),
  ("B", exMap [("properties", exMap [("r", .str "B | nil")])]),
  ("Both", exMap [("type", .mk .sequence "!!seq" "" [.str "A", .str "B"]), ("description", .str "x")])]

/-- The last type with one parent. -/
def exBothOne : String × YNode := ("Both", exMap [("type", .str "A"), ("description", .str "x")])

/-- C77, why inheritance is excluded: here both parents say the same about their only property and the file is parsed, but unwrapping it ends with an internal
error.  If the third type has one of the parents only, unwrapping succeeds. -/
theorem c77_internal_error :
    exResult (parseFromPath (exLibEnv exBothParents) 20 20 "a.raml" {}) = some (.library 0) ∧
    (exLibUnwrap exBothParents).1 = .err "shape is not unwrapped" ∧ (exLibUnwrap (exBothParents.take 2 ++ [exBothOne])).1 = .ok () :=
  ⟨by decide +kernel, by decide +kernel, by decide +kernel⟩

end GoRaml.Props
