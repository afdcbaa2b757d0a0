import Verif.Lemmas.VerdictAll
import Verif.Props.Panic
import Verif.Lemmas.TameResolve
import Verif.Props.UnwrapAll

/-!
# Properties C44, C65 on parsed models: the verdict of `ValidateShapes` covers the whole model, and validation leaves the model as it was
-/

namespace GoRaml.Props

open GoRaml GoRaml.Spec

/-- Values are Go values. -/
def goValues : Whole.Par where
  V := GoValue
  C _ := True
  X := Uncomparable
  nil := .nil
  cmp := .inr fun _ h => h

instance : goValues.Rec := ⟨trivial⟩

/-- Values are Go values, and enums hold scalars only. -/
def goScalars : Whole.Par where
  V := GoValue
  C v := v.isScalarVal = true
  X _ := False
  nil := .nil
  cmp := .inl fun _ h => h

instance : goScalars.Rec := ⟨trivial⟩

theorem fine_values {s : St} (hd : RuntimeDiscriminators s) (a : Addr) (sh : Shape) (ha : s.shapeAt a = some sh) (hs : ∀ f, sh ≠ .unknown f) :
    Whole.ShapeFine goValues sh := by
  cases sh <;> first | exact hd a _ ha | exact fun _ _ _ _ => trivial | trivial | exact absurd rfl (hs _)

theorem fine_scalars {s : St} (hd : RuntimeDiscriminators s) (he : ScalarEnums s) (a : Addr) (sh : Shape) (ha : s.shapeAt a = some sh) (hs : ∀ f, sh ≠ .unknown f) :
    Whole.ShapeFine goScalars sh := by
  have key : ∀ es, EnumOf sh = some es → ∀ v ∈ es, v.isScalarVal = true := fun es h1 v hv => by
    obtain ⟨h2, h3⟩ := he a sh ha es h1 v hv
    cases v <;> first | rfl | exact absurd rfl (h2 _) | exact absurd rfl (h3 _)
  cases sh <;> first | exact hd a _ ha | exact key | trivial | exact absurd rfl (hs _)

theorem vals_of {K : Whole.Par} {s : St} (hV : K.V = GoValue) (h : RuntimeModel s) (a : Addr) (b : Base) (hb : s.base a = some b) : Whole.BaseVals K b := by
  have := h.types a b hb
  exact ⟨fun ex h => hV ▸ this.example ex h, fun exs m h1 h2 e he => hV ▸ this.examples exs m h1 h2 e he, fun v h => hV ▸ this.default v h⟩

theorem sane_parsed {K : Whole.Par} {E : Env} {s : St} (h : Load.Loaded E s) (hv : RuntimeModel s) (hw : Whole.Wf K (Whole.cleared s))
    (ha : AnnotationsDeclared s) : Emb.Sane K K.X s where
  wf := hw
  libs k i hk := by obtain ⟨l, hl, _⟩ := h.w.frags _ hk; exact ⟨l, hl⟩
  dts k i hk := by obtain ⟨l, hl, _⟩ := h.w.frags _ hk; exact ⟨l, hl⟩
  source a b _ _ _ := by
    refine ⟨⟨h.wellFormed, fun x c y hc hs => ?_, fun x c hc => h.w.idLe x c hc⟩, fun _ h => h⟩
    obtain ⟨sh, h1, h2, h3⟩ := h.typed hc
    rw [hs] at h1; cases h1
    exact Emb.kind_not_recursive h2
  ids a b a' b' _ hb _ hb' he := h.w.idInj a a' b b' hb hb' he
  exts d hd := by
    obtain ⟨a, h1⟩ := Whole.loaded_exts h d hd
    have hdt := ha d hd a h1
    obtain ⟨b, hb⟩ := Load.isBase_base (hw.exts d hd a h1)
    exact ⟨a, b, h1, hb, Or.inr hdt⟩
  values := hv.annotations

theorem parsed_wf {K : Whole.Par} {E : Env} {s : St} (h : Load.Loaded E s) (hV : K.V = GoValue) (hv : RuntimeModel s)
    (hsh : ∀ a sh, s.shapeAt a = some sh → (∀ f, sh ≠ .unknown f) → Whole.ShapeFine K sh) : Whole.Wf K (Whole.cleared s) :=
  Whole.loaded_wf h hsh (vals_of hV hv) fun m hm e he => hV ▸ hv.facets m hm e he

theorem inv_start {K : Whole.Par} {s : St} (hw : Whole.Wf K (Whole.cleared s)) : Emb.Inv K s ⟨s, []⟩ :=
  ⟨.refl s, rfl, rfl, rfl, hw, Int.le_refl _, fun _ _ h => by cases h⟩

theorem reports_of {K : Whole.Par} {X : String → Prop} {s : St} {P : Prop} {r : Out Unit × St} (h : Emb.Verdict K X s P r) : Reports P X r.1 := by
  obtain ⟨o, t⟩ := r
  cases o with
  | ok u => exact ⟨fun _ => h.1, fun _ h => (by cases h), fun _ h => (by cases h)⟩
  | err e => exact ⟨fun h => (by cases h), fun _ _ => h.1, fun _ h => (by cases h)⟩
  | panic e => exact ⟨fun h => (by cases h), fun _ h => (by cases h), fun e' he => by cases he; exact h⟩
  | diverge => exact ⟨fun h => (by cases h), fun _ h => (by cases h), fun _ h => (by cases h)⟩

theorem inv_validated {K : Whole.Par} [K.Rec] {s t : St} (hs : Emb.Sane K K.X s) (hV : K.V = GoValue) (h : Validated s t) : Emb.Inv K s ⟨t, []⟩ := by
  induction h with
  | start => exact inv_start hs.wf
  | @again t t' E ord frags k o _ ho hf hr hx ih =>
    have := Emb.validateShapes_verdict (E := E) hs (fun v hv => hV ▸ hv) ho k hf ih
    rw [hr] at this
    rcases hx with ⟨_, rfl⟩ | ⟨_, rfl⟩
    · exact this.2
    · exact this.2

section
variable (E : Env) (n m : Nat) (path : String) (f : FragRef) (s : St) (h : parseFromPath E n m path {} = (.ok f, s)) (hv : RuntimeModel s) (ha : AnnotationsDeclared s)
  (X : Ext) {ord : OMap Property → OMap Property} (ho : ∀ l, (ord l).Perm l) (k : Nat) {frags : List FragRef} (hf : frags.Perm (s.fragments.map (·.2)))
include h hv ha

theorem parsed_sane : Emb.Sane goValues Uncomparable s :=
  have hl := parsed_loaded E n m path f s h
  sane_parsed hl hv (parsed_wf hl rfl hv (fine_values hv.discriminators)) ha

theorem parsed_sane_scalar (he : ScalarEnums s) : Emb.Sane goScalars (fun _ => False) s :=
  have hl := parsed_loaded E n m path f s h
  sane_parsed hl hv (parsed_wf hl rfl hv (fine_scalars hv.discriminators he)) ha

include ho hf

/-- C44: on a parsed model, not unwrapped, in whatever order fragments and facet declarations are visited: if `ValidateShapes` reports no error, every
declared type can be unwrapped and is right and every annotation has a value of its type; if it reports an error, that is not so.  It panics in no other way
than by comparing two lists or two maps. -/
theorem c44_verdict : Reports (ModelFine X s) Uncomparable (validateShapes X ord frags k s).1 :=
  have hs := parsed_sane E n m path f s h hv ha
  reports_of (Emb.validateShapes_verdict hs (fun _ h => h) ho k hf (inv_start hs.wf))

/-- C44: if the enums hold no lists and no maps, it does not panic at all. -/
theorem c44_no_panic (he : ScalarEnums s) (e : String) : (validateShapes X ord frags k s).1 ≠ .panic e := fun hp =>
  have hs := parsed_sane_scalar E n m path f s h hv ha he
  (reports_of (Emb.validateShapes_verdict (E := X) hs (fun _ h => h) ho k hf (inv_start hs.wf))).2.2 e hp

/-- C44: calling it again, any number of times, does not change the verdict. -/
theorem c44_again {t : St} (ht : Validated s t) : Reports (ModelFine X s) Uncomparable (validateShapes X ord frags k t).1 :=
  have hs := parsed_sane E n m path f s h hv ha
  reports_of (Emb.validateShapes_verdict hs (fun _ h => h) ho k hf (inv_validated hs rfl ht))

omit ho hf in
/-- C65: however often it has been validated, the model is what it was: fragments, libraries, annotations, and all types with all they consist of. -/
theorem c65_unchanged {t : St} (ht : Validated s t) : SameModel s t :=
  have hi := inv_validated (parsed_sane E n m path f s h hv ha) rfl ht
  have ab := hi.above
  ⟨hi.fragments, hi.libs, hi.exts, ab.dts, ab.bases, ab.pmaps, ab.ppmaps, ab.slices, ab.fmaps⟩

omit ho hf in
/-- C65: and its types accept the values they accepted. -/
theorem c65_same_values {t : St} (ht : Validated s t) {a : Addr} (hb : IsBase s a) (v : GoVal) : Valid X t a v ↔ Valid X s a v :=
  have hs := parsed_sane E n m path f s h hv ha
  (Emb.Sees.self (Emb.Wf.tight hs.wf) (inv_validated hs rfl ht).above hb).valid

end

/-! ## After unwrapping -/

theorem modelFine_iff {E : Ext} {s : St} (hu : AllUnwrapped s) (hd : ∀ a, DeclaredType s a → IsBase s a) (hx : ∀ d ∈ s.domainExts, ∃ a, d.definedBy = some a ∧ IsBase s a) :
    ModelFine E s ↔ ModelOK E s := by
  refine and_congr (forall₂_congr fun a ha => ?_) (forall₂_congr fun d hdm => ?_)
  · obtain ⟨b, hb⟩ := Load.isBase_base (hd a ha)
    exact Emb.typeFine_done hb (hu.1 a b ha hb)
  · obtain ⟨a, h1, h2⟩ := hx d hdm
    obtain ⟨b, hb⟩ := Load.isBase_base h2
    have := Emb.valueFine_done (E := E) (v := d.value) hb (hu.2 d hdm a b h1 hb)
    constructor
    · rintro ⟨a', h3, h4⟩ a'' h5
      rw [h1] at h3 h5; cases h3; cases h5
      exact this.1 h4
    · intro h3; exact ⟨a, h1, this.2 (h3 a h1)⟩

/-- C44: after `UnwrapShapes`, if it left every annotation its type: a missing error means that the model is valid as it stands, an error that it is not.  It
does not panic and changes nothing. -/
theorem c44_after_unwrap (E : Env) (n m : Nat) (path : String) (f : FragRef) (s : St) (h : parseFromPath E n m path {} = (.ok f, s)) (hv : RuntimeModel s)
    {j : Nat} {fs fs' : List FragRef} (hfs : fs.Perm (s.fragments.map (·.2))) (hfs' : fs'.Perm (s.fragments.map (·.2))) {s' : St}
    (hr : unwrapShapes j fs fs' s = (.ok (), s')) (hx : ∀ d ∈ s'.domainExts, d.definedBy ≠ none)
    (X : Ext) {ord : OMap Property → OMap Property} (ho : ∀ l, (ord l).Perm l) (k : Nat) {frags : List FragRef} (hf : frags.Perm (s'.fragments.map (·.2))) :
    Reports (ModelOK X s') (fun _ => False) (validateShapes X ord frags k s').1 ∧ (validateShapes X ord frags k s').2 = s' := by
  have hl := parsed_loaded E n m path f s h
  have hu := (c62_after_unwrap E n m path f s h j hfs hfs' hr).1
  have hwm := (c61_model_kept E n m path f s h j hfs hfs')
  rw [hr] at hwm
  obtain ⟨hwm, hso⟩ := hwm
  have hw := Whole.loaded_unwrap (K := goValues) hl (fine_values hv.discriminators) (vals_of rfl hv) hv.facets j (perm_fragments hfs) (perm_fragments hfs')
  have hw : Whole.Wf goValues s' := by
    have := hw.1
    rw [← Whole.unwrapShapes_cleared, hr] at this
    exact this
  have hwc := Emb.Wf.cleared hw
  have hdecl : ∀ a, DeclaredType s' a → IsBase s' a := by
    intro a ha
    cases ha with
    | type _ hl he => exact (hwm.libTypes _ (List.mem_of_getElem? hl)).1 _ he
    | annotationType _ hl he => exact (hwm.libTypes _ (List.mem_of_getElem? hl)).2 _ he
    | dataType _ hd hs =>
      obtain ⟨a', h1, h2⟩ := hwm.dtTypes _ (List.mem_of_getElem? hd)
      rw [hs] at h1; cases h1
      exact h2
  have hex : ∀ d ∈ s'.domainExts, ∃ a, d.definedBy = some a ∧ IsBase s' a := by
    intro d hd
    cases hdb : d.definedBy with
    | none => exact absurd hdb (hx d hd)
    | some a => exact ⟨a, rfl, hwm.annotations d hd a hdb⟩
  have hs : Emb.Sane goValues (fun _ => False) s' := by
    refine ⟨hwc, hwm.libs, hwm.dts, fun a b ha hb hu' => ?_, fun a b a' b' ha hb hu' => ?_, fun d hd => ?_, fun d hd => ?_⟩
    · rw [hu.1 a b ha hb] at hu'; cases hu'
    · rw [hu.1 a b ha hb] at hu'; cases hu'
    · obtain ⟨a, h1, h2⟩ := hex d hd
      obtain ⟨b, hb⟩ := Load.isBase_base h2
      exact ⟨a, b, h1, hb, Or.inl (hu.2 d hd a b h1 hb)⟩
    · have : (d.name, d.value, d.location) ∈ s.domainExts.map fun d => (d.name, d.value, d.location) := by
        rw [← hso.annotations]; exact List.mem_map.2 ⟨d, hd, rfl⟩
      obtain ⟨d', hd', he⟩ := List.mem_map.1 this
      have : d'.value = d.value := (Prod.mk.inj (Prod.mk.inj he).2).1
      exact this ▸ hv.annotations d' hd'
  refine ⟨?_, Emb.validateShapes_still k (fun x hx => perm_fragments hf x hx) fun a ha => ?_⟩
  · have := reports_of (Emb.validateShapes_verdict (E := X) hs (fun _ h => h) ho k hf (inv_start hwc))
    refine ⟨fun h => (modelFine_iff hu hdecl hex).1 (this.1 h), fun e h => ?_, this.2.2⟩
    rw [← modelFine_iff hu hdecl hex]
    exact this.2.1 e h
  · obtain ⟨b, hb⟩ := Load.isBase_base (hdecl a ha)
    exact ⟨b, hb, hu.1 a b ha hb⟩

/-! ## Where the conditions hold -/

/-- If no file leads back to one that includes it, the annotations of a parsed model have declared types. -/
theorem c44_annotations_declared (E : Env) (hE : NoWayBack E) (n m : Nat) (path : String) (f : FragRef) (s : St) (h : parseFromPath E n m path {} = (.ok f, s)) :
    AnnotationsDeclared s := by
  intro d hd a hda
  obtain ⟨a', h1, h2, -⟩ := c60_annotations_linked E n m path f s h d hd
  rw [hda] at h1; cases h1
  obtain ⟨-, hown⟩ := Load.parseFromPath_ok (K := Load.ownCtl) trivial (Load.ownRegs hE) (fun _ hx => ⟨hx.lib, hx.dt⟩) (fun _ _ hx => ⟨hx.lib, hx.dt⟩)
    ⟨fun i l hi => by simp at hi, fun i l hi => by simp at hi⟩ h
  have key : ∀ (i : Nat) (l : Lib) (k : String), s.libs[i]? = some l → OMap.get l.annotationTypes k = some a → DeclaredType s a := by
    intro i l k hl hg
    exact .annotationType (OMap.mem_of_get (hown.lib i l hl)) hl (OMap.mem_of_get hg)
  unfold getReferenced at h2
  split at h2
  · cases h2
  · rename_i i hi
    split at h2
    · cases h2
    · rename_i l hl
      rcases (c36_library_lookup s l _ _ _).1 h2 with h3 | ⟨_, _, ⟨p, j, _, h4⟩, h5⟩
      · exact key i l _ hl h3
      · exact key j _ _ h4 h5
  · split at h2
    · cases h2
    · rename_i d' hd'
      obtain ⟨_, ⟨p, j, _, h4⟩, h5⟩ := ((c36_data_type_lookup s d' _ _).1 _).1 h2
      exact key j _ _ h4 h5
  · cases h2

def goVals (E : Env) (h : RuntimeEnv E) : Tame.Vals E where
  V := GoValue
  nil := .nil
  str := .str
  arr := .arr
  map := .map
  any := h.yaml
  first := h.first
  json := h.json

/-- From files in order, with decoders that give Go values, the values of a parsed model are Go values. -/
theorem c44_runtime_model (E : Env) (hE : RuntimeEnv E) (ho : Orderly E) (n m : Nat) (path : String) (f : FragRef) (s : St) (h : parseFromPath E n m path {} = (.ok f, s)) :
    RuntimeModel s := by
  obtain ⟨hi, -⟩ := (Tame.parseOK (goVals E hE) ho n m path).ok h
  refine ⟨fun a b hb => ?_, hi.fmaps, fun a g hg => ?_, hi.exts⟩
  · have := hi.base a b hb
    refine ⟨fun e he => ?_, this.example, this.examples, this.default⟩
    cases hp : b.facets with
    | none => rw [hp] at he; simp [St.facetMap] at he
    | some i =>
      rw [hp] at he
      simp only [St.facetMap] at he
      cases hm : s.fmaps[i]? with
      | none => rw [hm] at he; simp at he
      | some mm => rw [hm] at he; exact hi.fmaps mm (List.mem_of_getElem? hm) e he
  · obtain ⟨b, hb, hs⟩ : ∃ b, s.base a = some b ∧ b.shape = some (.object g) := by simpa [St.shapeAt, Option.bind_eq_some_iff] using hg
    exact (hi.base a b hb).disc g hs

/-- C44, from the files: with decoders that give Go values, files in order and no file leading back to one that includes it. -/
theorem c44_files (E : Env) (hE : RuntimeEnv E) (ho : Orderly E) (hw : NoWayBack E) (n m : Nat) (path : String) (f : FragRef) (s : St)
    (h : parseFromPath E n m path {} = (.ok f, s)) (X : Ext) {ord : OMap Property → OMap Property} (hord : ∀ l, (ord l).Perm l) (k : Nat) {frags : List FragRef}
    (hf : frags.Perm (s.fragments.map (·.2))) : Reports (ModelFine X s) Uncomparable (validateShapes X ord frags k s).1 :=
  c44_verdict E n m path f s h (c44_runtime_model E hE ho n m path f s h) (c44_annotations_declared E hw n m path f s h) X hord k hf

/-! ## Examples -/

theorem exFilesEnv_runtime (files : List (String × String × YNode)) : RuntimeEnv (exFilesEnv files) where
  yaml n v h := by cases h; exact .str _
  first t v h := by cases h
  json t v h := by cases h

/-- A type that refers to itself, one that inherits from it, and an annotation with a type of the given name. -/
def exTree (note : String) : List (String × String × YNode) := [
  ("a.raml", "#%RAML 1.0 Library\na", exDoc [
    ("annotationTypes", exMap [("note", .str note)]),
    ("types", exMap [
      ("Tree", exMap [("properties", exMap [("left?", .str "Tree"), ("name", .str "string")]), ("(note)", .str "x")]),
      ("Named", exMap [("type", .str "Tree"), ("properties", exMap [("name", .str "string")])])])])]

/-- Parsing the file, and validating the model without unwrapping it. -/
def exTreeModel (note : String) : Out FragRef × St := parseFromPath (exFilesEnv (exTree note)) 20 20 "a.raml" {}

def exTreeVerdict (note : String) : Out Unit × St :=
  validateShapes exE id ((exTreeModel note).2.fragments.map (·.2)) 40 (exTreeModel note).2

theorem exTree_noWayBack (note : String) (hn : note = "string" ∨ note = "integer") : NoWayBack (exFilesEnv (exTree note)) := by
  refine noWayBack_of_rank (fun _ => 0) (fun p q h => ?_) (fun p q h => Nat.le_refl _)
  rcases hn with rfl | rfl
  · have := exFiles_includes (fun p q => false) (by decide +kernel) p q h; cases this
  · have := exFiles_includes (fun p q => false) (by decide +kernel) p q h; cases this

theorem exTree_orderly (note : String) (hn : note = "string" ∨ note = "integer") : Orderly (exFilesEnv (exTree note)) := by
  rcases hn with rfl | rfl <;> exact orderly_files (n := 20) (by decide +kernel) (by decide +kernel) (by decide +kernel)

theorem exTree_parses (note : String) (hn : note = "string" ∨ note = "integer") :
    parseFromPath (exFilesEnv (exTree note)) 20 20 "a.raml" {} = (.ok (.library 0), (exTreeModel note).2) := by
  have h : exResult (exTreeModel note) = some (.library 0) := by rcases hn with rfl | rfl <;> decide +kernel
  unfold exTreeModel at h ⊢
  cases hd : parseFromPath (exFilesEnv (exTree note)) 20 20 "a.raml" {} with
  | mk o t =>
    rw [hd] at h
    cases o <;> simp_all [exResult]

def exOk (o : Out Unit) : Bool := match o with | .ok () => true | _ => false
def exErr (o : Out Unit) : Option String := match o with | .err e => some e | _ => none

/-- The hypotheses are met with both verdicts: with a string annotation type the model is valid, with an integer one it is not. -/
example : ModelFine exE (exTreeModel "string").2 := by
  have h : exOk (exTreeVerdict "string").1 = true := by decide +kernel
  refine (c44_files _ (exFilesEnv_runtime _) (exTree_orderly _ (.inl rfl)) (exTree_noWayBack _ (.inl rfl)) 20 20 "a.raml" _ _ (exTree_parses _ (.inl rfl)) exE
    (ord := id) (fun _ => .refl _) 40 (.refl _)).1 ?_
  unfold exTreeVerdict at h
  revert h
  cases (validateShapes exE id ((exTreeModel "string").2.fragments.map (·.2)) 40 (exTreeModel "string").2).1 <;> simp [exOk]

example : ¬ ModelFine exE (exTreeModel "integer").2 := by
  have h : exErr (exTreeVerdict "integer").1 = some "invalid type" := by decide +kernel
  refine (c44_files _ (exFilesEnv_runtime _) (exTree_orderly _ (.inr rfl)) (exTree_noWayBack _ (.inr rfl)) 20 20 "a.raml" _ _ (exTree_parses _ (.inr rfl)) exE
    (ord := id) (fun _ => .refl _) 40 (.refl _)).2.1 "invalid type" ?_
  unfold exTreeVerdict at h
  revert h
  cases (validateShapes exE id ((exTreeModel "integer").2.fragments.map (·.2)) 40 (exTreeModel "integer").2).1 <;> simp [exErr]

/-- C65: what does change is the list of shapes that `GetShapes` returns: it gets the copies, too.  (One type here refers to itself.) -/
theorem c65_shapes_grow : (exTreeModel "string").2.shapes.length = 6 ∧ (exTreeVerdict "string").2.shapes.length = 17 := by decide +kernel

/-- A library uses another, which includes a data type that uses it in turn. -/
def exFar : List (String × String × YNode) := [
  ("e.raml", "#%RAML 1.0 Library\ne", exDoc [("uses", exMap [("l", .str "l.raml")]),
    ("types", exMap [("S", exMap [("type", .str "string"), ("(l.A)", .str "v")])])]),
  ("l.raml", "#%RAML 1.0 Library\nl", exDoc [
    ("annotationTypes", exMap [("A", .str "string")]),
    ("types", exMap [("T", exMap [("type", .mk .scalar "!include" "d.raml" [])])])]),
  ("d.raml", "#%RAML 1.0 DataType\nd", exDoc [("uses", exMap [("l", .str "l.raml")]), ("type", .str "string")])]

/-- The error a parse ends with. -/
def exErrOf (r : Out FragRef × St) : Option String := match r.1 with | .err e => some e | _ => none

/-- C44, where it fails: the files are in order and the same model is accepted if unwrapping is asked for as well, but validation alone rejects it, because the
library that the annotation type is from was decoded twice and only one of the two is registered. -/
theorem c44_library_read_twice : Orderly (exFilesEnv exFar) ∧
    (parseFromPath (exFilesEnv exFar) 20 20 "e.raml" {}).2.domainExts.map (fun d => (d.name, d.definedBy)) = [("l.A", some 1)] ∧
    exResult (parseWith (exFilesEnv exFar) {} 20 20 "e.raml" { withUnwrap := true, withValidate := true } {}) = some (.library 0) ∧
    exErrOf (parseWith (exFilesEnv exFar) {} 20 20 "e.raml" { withValidate := true } {}) = some "unwrapped shape not found" := by
  refine ⟨orderly_files (n := 20) (by decide +kernel) (by decide +kernel) (by decide +kernel), ?_, ?_, ?_⟩ <;> decide +kernel

end GoRaml.Props
