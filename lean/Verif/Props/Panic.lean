import Verif.Lemmas.TameResolve
import Verif.Props.Decode

/-!
# Parsing does not panic (C64)

`parseFromPath E n m path {}` ends with `.panic` where the Go program would panic (an index out of range, a nil pointer, a failed type assertion).
`Spec.Orderly E` says of the files what they must look like; each of its clauses is needed, as the examples below show.
-/

namespace GoRaml.Props

open Spec

/-- Any value. -/
def anyVals (E : Env) : Tame.Vals E where
  V _ := True
  nil := trivial
  str _ := trivial
  arr _ _ := trivial
  map _ _ := trivial
  any _ _ _ := trivial
  first _ _ _ := trivial
  json _ _ _ := trivial

/-- C64: parsing files in order panics only when it reaches a library that could not be loaded. -/
theorem c64_no_panic (E : Env) (ho : Orderly E) (n m : Nat) (path e : String) (s : St) (h : parseFromPath E n m path {} = (.panic e, s)) : Unlinked s :=
  (Tame.parseOK (anyVals E) ho n m path).panicked h

/-! ## Checking that files are in order -/

/-- The keys and values of the content of a mapping. -/
def pairsOf : List YNode → List (YNode × YNode)
  | k :: v :: rest => (k, v) :: pairsOf rest
  | _ => []

theorem mem_pairsOf {k v : YNode} {l : List YNode} (h : Entry k v l) : (k, v) ∈ pairsOf l := by
  induction h with
  | here => exact List.mem_cons_self
  | there _ ih => exact List.mem_cons_of_mem _ ih

/-- Decides `OfKind`. -/
def ofKindB (E : Env) (p : String) (k : FragmentKind) : Bool :=
  match E.file p with
  | none => false
  | some text => match checkFragmentKind p text k with
    | .ok () => true
    | _ => false

theorem ofKindB_iff {E : Env} {p : String} {k : FragmentKind} : ofKindB E p k = true ↔ OfKind E p k := by
  unfold ofKindB OfKind
  cases hf : E.file p with
  | none => simp
  | some text =>
    simp only [Option.some.injEq, exists_eq_left']
    rw [← c55_check_kind]
    cases checkFragmentKind p text k <;> simp

/-- Decides `OnlyKind`. -/
def onlyKindB (E : Env) (p : String) (k : FragmentKind) : Bool :=
  [FragmentKind.library, .dataType, .namedExample].all fun k' => k' = k || !ofKindB E p k'

theorem onlyKind_of {E : Env} {p : String} {k : FragmentKind} (h : onlyKindB E p k = true) : OnlyKind E p k := by
  intro k' hk
  have hm : k' ∈ [FragmentKind.library, .dataType, .namedExample] := by cases k' <;> simp
  have := List.all_eq_true.1 h k' hm
  simpa [ofKindB_iff.2 hk] using this

/-- Decides `TypeNode` for trees that are not too deep. -/
def typeNodeB (E : Env) (loc : String) : Nat → YNode → Bool
  | 0, _ => false
  | n + 1, v => match v.kind with
    | .scalar => (v.tag ≠ "!!str" || v.value ≠ "composite") && (v.tag ≠ "!include" || onlyKindB E (E.joinDir loc v.value) .dataType)
    | .sequence => !v.content.isEmpty && v.content.all fun u => u.kind ≠ .scalar || typeNodeB E loc n u
    | .mapping => (pairsOf v.content).all fun e =>
        (!(e.1.value = "type" || e.1.value = "items") || typeNodeB E loc n e.2) &&
        (!(e.1.value = "properties" || e.1.value = "facets") || (pairsOf e.2.content).all fun e' => typeNodeB E loc n e'.2) &&
        (e.1.value ≠ "facets" || e.2.content.length % 2 = 0) &&
        (e.1.value ≠ "examples" || e.2.tag ≠ "!include" || onlyKindB E (E.joinDir loc e.2.value) .namedExample)
    | _ => true

theorem typeNode_of {E : Env} {loc : String} (n : Nat) : ∀ v, typeNodeB E loc n v = true → TypeNode E loc v := by
  induction n with
  | zero => intro v h; simp [typeNodeB] at h
  | succ n ih =>
    intro v h
    unfold typeNodeB at h
    cases hk : v.kind with
    | scalar =>
      rw [hk] at h
      simp only [Bool.and_eq_true, Bool.or_eq_true, decide_eq_true_eq] at h
      exact .name hk (fun ht => h.1.resolve_left fun hn => hn ht) fun ht => onlyKind_of (h.2.resolve_left fun hn => hn ht)
    | sequence =>
      rw [hk] at h
      simp only [Bool.and_eq_true, Bool.not_eq_true', List.all_eq_true, Bool.or_eq_true, decide_eq_true_eq] at h
      exact .parents hk (fun he => by rw [he] at h; simp at h) fun u hu hs => ih u ((h.2 u hu).resolve_left fun hn => hn hs)
    | mapping =>
      rw [hk] at h
      simp only [List.all_eq_true, Bool.and_eq_true, Bool.or_eq_true, Bool.not_eq_true', decide_eq_true_eq, Bool.or_eq_false_iff, decide_eq_false_iff_not] at h
      refine .declaration hk (fun k u hu hn => ?_) (fun k u k' u' hu hn hu' => ?_) (fun k u hu hn => ?_) fun k u hu hn ht => ?_
      · exact ih u ((h _ (mem_pairsOf hu)).1.1.1.resolve_left fun hx => hn.elim hx.1 hx.2)
      · exact ih u' ((h _ (mem_pairsOf hu)).1.1.2.resolve_left (fun hx => hn.elim hx.1 hx.2) _ (mem_pairsOf hu'))
      · exact (h _ (mem_pairsOf hu)).1.2.resolve_left fun hx => hx hn
      · exact onlyKind_of ((h _ (mem_pairsOf hu)).2.resolve_left fun hx => hx.elim (fun hx => hx hn) fun hx => hx ht)
    | document => exact .other (by simp [hk]) (by simp [hk]) (by simp [hk])
    | zero => exact .other (by simp [hk]) (by simp [hk]) (by simp [hk])
    | «alias» => exact .other (by simp [hk]) (by simp [hk]) (by simp [hk])

/-- Decides `Shaped` for trees that are not too deep. -/
def shapedB : Nat → YNode → Bool
  | 0, _ => false
  | n + 1, v => (v.kind ≠ .mapping || v.content.length % 2 = 0) && (v.kind ≠ .document || !v.content.isEmpty) && v.content.all (shapedB n)

theorem shaped_of (n : Nat) : ∀ v, shapedB n v = true → Shaped v := by
  induction n with
  | zero => intro v h; simp [shapedB] at h
  | succ n ih =>
    intro v h u hu
    simp only [shapedB, Bool.and_eq_true, Bool.or_eq_true, decide_eq_true_eq, List.all_eq_true, Bool.not_eq_true'] at h
    cases hu with
    | refl => exact ⟨fun hk => h.1.1.resolve_left fun hn => hn hk, fun hk he => by simp [he, hk] at h⟩
    | step hm hw => exact ih _ (h.2 _ hm) u hw

/-- Decides `Orderly` for the given files. -/
def orderlyB (E : Env) (n : Nat) (files : List (String × String × YNode)) : Bool :=
  files.all fun e =>
    let root := docRoot e.2.2
    let uses := (pairsOf root.content).all fun x => x.1.value ≠ "uses" || (pairsOf x.2.content).all fun y => onlyKindB E (E.joinDir e.1 y.2.value) .library
    shapedB n e.2.2 && root.tag ≠ "!!null" && uses &&
      (!ofKindB E e.1 .library || (pairsOf root.content).all fun x => !(x.1.value = "types" || x.1.value = "annotationTypes") ||
        (pairsOf x.2.content).all fun y => typeNodeB E e.1 n y.2) &&
      (!ofKindB E e.1 .dataType || typeNodeB E e.1 n root && (pairsOf root.content).all fun x => x.1.value ≠ "uses" || x.2.content.length % 2 = 0)

theorem orderly_of {E : Env} {n : Nat} {files : List (String × String × YNode)}
    (hf : ∀ p t, E.file p = some t → ∃ d, (p, t, d) ∈ files ∧ ∀ d', E.yamlParse t = some d' → d' = d) (hy : ∀ t d, E.yamlParse t = some d → ∃ p, (p, t, d) ∈ files)
    (hj : ∀ p, ".json".toList <:+ p.toList → E.file p = none) (h : orderlyB E n files = true) : Orderly E := by
  have hall := List.all_eq_true.1 h
  have hdoc : ∀ p d, Document E p d → ∃ t, (p, t, d) ∈ files := by
    rintro p d ⟨t, ht, hd⟩
    obtain ⟨d', hm, hu⟩ := hf p t ht
    exact ⟨t, by rw [hu d hd]; exact hm⟩
  have huses : ∀ p d, Document E p d → ∀ value, UsesValue (docRoot d) value → OnlyKind E (E.joinDir p value) .library := by
    rintro p d hd value ⟨k, v, k', v', he, hk, he', rfl⟩
    obtain ⟨t, hm⟩ := hdoc p d hd
    have := hall _ hm
    simp only [Bool.and_eq_true, Bool.or_eq_true, decide_eq_true_eq, List.all_eq_true] at this
    exact onlyKind_of ((this.1.1.2 _ (mem_pairsOf he)).resolve_left (fun hn => hn hk) _ (mem_pairsOf he'))
  refine ⟨fun t d hd => ?_, fun p k d _ hd => ?_, fun p d hk hd => ⟨fun k v k' v' he hn he' => ?_, huses p d hd⟩, fun p d hk _ hd => ⟨?_, fun k v he hn => ?_, huses p d hd⟩,
    fun p hp => by rw [hj p hp]; simp⟩
  · obtain ⟨p, hm⟩ := hy t d hd
    have := hall _ hm
    simp only [Bool.and_eq_true] at this
    exact shaped_of n d this.1.1.1.1
  · obtain ⟨t, hm⟩ := hdoc p d hd
    have := hall _ hm
    simp only [Bool.and_eq_true, decide_eq_true_eq] at this
    exact this.1.1.1.2
  · obtain ⟨t, hm⟩ := hdoc p d hd
    have := hall _ hm
    simp only [Bool.and_eq_true, Bool.or_eq_true, ofKindB_iff.2 hk, Bool.not_true, Bool.false_eq_true, false_or, List.all_eq_true, Bool.not_eq_true', Bool.or_eq_false_iff,
      decide_eq_false_iff_not] at this
    exact typeNode_of n _ ((this.1.2 _ (mem_pairsOf he)).resolve_left (fun hx => hn.elim hx.1 hx.2) _ (mem_pairsOf he'))
  · obtain ⟨t, hm⟩ := hdoc p d hd
    have := hall _ hm
    simp only [Bool.and_eq_true, Bool.or_eq_true, ofKindB_iff.2 hk, Bool.not_true, Bool.false_eq_true, false_or] at this
    exact typeNode_of n _ this.2.1
  · obtain ⟨t, hm⟩ := hdoc p d hd
    have := hall _ hm
    simp only [Bool.and_eq_true, Bool.or_eq_true, ofKindB_iff.2 hk, Bool.not_true, Bool.false_eq_true, false_or, List.all_eq_true, decide_eq_true_eq] at this
    exact (this.2.2 _ (mem_pairsOf he)).resolve_left fun hx => hx hn

theorem orderly_files {files : List (String × String × YNode)} (hd : (files.map (·.2.1)).Nodup) (hj : ∀ e ∈ files, ¬ ".json".toList <:+ e.1.toList)
    {n : Nat} (h : orderlyB (exFilesEnv files) n files = true) : Orderly (exFilesEnv files) := by
  refine orderly_of (fun p t hp => ?_) (fun t d hy => ?_) (fun p hp => ?_) h
  · simp only [exFilesEnv, Option.map_eq_some_iff] at hp
    obtain ⟨⟨p', t', d⟩, he, rfl⟩ := hp
    have hm := List.mem_of_find?_eq_some he
    have hp' : p' = p := by simpa using List.find?_some he
    refine ⟨d, by rw [← hp']; exact hm, fun d' hd' => ?_⟩
    simp only [exFilesEnv, Option.map_eq_some_iff] at hd'
    obtain ⟨e', he', rfl⟩ := hd'
    have hm' := List.mem_of_find?_eq_some he'
    have ht' : e'.2.1 = t' := by simpa using List.find?_some he'
    have := List.inj_on_of_nodup_map hd hm' hm ht'
    rw [this]
  · simp only [exFilesEnv, Option.map_eq_some_iff] at hy
    obtain ⟨⟨p', t', d'⟩, he, rfl⟩ := hy
    have ht : t' = t := by simpa using List.find?_some he
    exact ⟨p', by rw [← ht]; exact List.mem_of_find?_eq_some he⟩
  · simp only [exFilesEnv, Option.map_eq_none_iff, List.find?_eq_none, decide_eq_true_eq]
    intro e he hx
    exact hj e he (by rw [hx]; exact hp)

/-! ## Examples -/

/-- The message of a panic. -/
def exPanic {α : Type} (r : Out α × St) : Option String :=
  match r.1 with
  | .panic e => some e
  | _ => none

/-- An `!include`. -/
def exInclude (p : String) : YNode := .mk .scalar "!include" p []

/-- A list. -/
def exSeq (l : List YNode) : YNode := .mk .sequence "!!seq" "" l

/-- The files of C38 are in order. -/
example : Orderly (exFilesEnv exFiles) := orderly_files (n := 20) (by decide +kernel) (by decide +kernel) (by decide +kernel)

/-- A library that includes a data type, which uses a library that does not exist. -/
def exUnlinked : List (String × String × YNode) := [
  ("a.raml", "#%RAML 1.0 Library\na", exDoc [("types", exMap [("X", .str "object"),
    ("T", exMap [("type", .str "X"), ("properties", exMap [("p", exInclude "d.raml")])])])]),
  ("d.raml", "#%RAML 1.0 DataType\nd", exDoc [("uses", exMap [("l", .str "l.raml")]), ("type", .str "l.U")])]

/-- C64: these files are in order, and parsing them panics: the properties of `T` are decoded when `T` is resolved; this fails because `l.raml` does not exist, but
resolution goes on with the type of `d.raml`, which has been registered already. -/
theorem c64_unlinked_panics : Orderly (exFilesEnv exUnlinked) ∧ exPanic (parseFromPath (exFilesEnv exUnlinked) 20 20 "a.raml" {}) = some "nil pointer dereference" :=
  ⟨orderly_files (n := 20) (by decide +kernel) (by decide +kernel) (by decide +kernel), by decide +kernel⟩

/-- A library with one type. -/
def exOneType (v : YNode) : List (String × String × YNode) := [("a.raml", "#%RAML 1.0 Library\na", exDoc [("types", exMap [("T", v)])])]

/-- How the parse of the file `a.raml` panics. -/
def exPanics (files : List (String × String × YNode)) : Option String := exPanic (parseFromPath (exFilesEnv files) 20 20 "a.raml" {})

/-- C64: an empty list of parents, the type name `composite`, and facet declarations that are a list make parsing panic. -/
theorem c64_declaration_panics : exPanics (exOneType (exMap [("type", exSeq [])])) = some "index out of range" ∧
    exPanics (exOneType (.str "composite")) = some "index out of range" ∧
    exPanics (exOneType (exMap [("facets", exSeq [.str "x"])])) = some "index out of range" := by
  refine ⟨?_, ?_, ?_⟩ <;> decide +kernel

/-- C64: an empty document, and a list of used libraries in a data type, make parsing panic. -/
theorem c64_document_panics : exPanics [("a.raml", "#%RAML 1.0 Library\n", .mk .document "" "" [.mk .scalar "!!null" "" []])] = some "nil pointer dereference" ∧
    exPanics [("a.raml", "#%RAML 1.0 DataType\na", exDoc [("uses", exSeq [.str "x"])])] = some "index out of range" := by
  refine ⟨?_, ?_⟩ <;> decide +kernel

/-- A type whose property is decoded when the type is resolved. -/
def exLate (v : YNode) : List (String × String × YNode) := [
  ("a.raml", "#%RAML 1.0 Library\na", exDoc [("types", exMap [("X", .str "object"), ("T", exMap [("type", .str "X"), ("properties", exMap [("p", v)])])])])]

/-- C64: a file that has been loaded as a fragment of one kind and is then asked for as another kind makes parsing panic. -/
theorem c64_kind_panics : exPanics [
      ("a.raml", "#%RAML 1.0 Library\na", exDoc [("types", exMap [("T", exInclude "d.raml")]), ("uses", exMap [("d", .str "d.raml")])]),
      ("d.raml", "#%RAML 1.0 DataType\nd", exDoc [("type", .str "string")])] = some "interface conversion" ∧
    exPanics (exLate (exInclude "a.raml")) = some "interface conversion" ∧
    exPanics (exLate (exMap [("type", .str "string"), ("examples", exInclude "a.raml")])) = some "interface conversion" := by
  refine ⟨?_, ?_, ?_⟩ <;> decide +kernel

end GoRaml.Props
