import Verif.Lemmas.TagFiles
import Verif.Lemmas.TagParse
import Verif.Lemmas.TagSteps
import Verif.Props.Twice
import Verif.Props.Flat

/-!
# Names, locations and the types of annotations after unwrapping (C86)
-/

namespace GoRaml.Props

open GoRaml GoRaml.Spec

/-- C86: `UnwrapShapes` keeps the name and the location of every type, from any state and however it ends. -/
theorem c86_names_kept (n : Nat) (frags frags' : List FragRef) (s : St) : ∀ a b, s.base a = some b →
    ∃ b', (unwrapShapes n frags frags' s).2.base a = some b' ∧ b'.name = b.name ∧ b'.location = b.location :=
  Tag.labels_unwrapShapes n frags frags' s

/-- C86: so do `UnwrapShape` and `FindAndMarkRecursion` for a single type. -/
theorem c86_names_kept_single (n : Nat) (x : Addr) (s : St) : ∀ a b, s.base a = some b →
    (∃ b', (unwrap n x s).2.base a = some b' ∧ b'.name = b.name ∧ b'.location = b.location) ∧
    ∃ b', (mark n x s).2.base a = some b' ∧ b'.name = b.name ∧ b'.location = b.location := fun a b h =>
  ⟨(Tag.nkeep_unwrap n x s).base a b h, Tag.labels_mark n x s a b h⟩

/-- C86: so does `ValidateShapes`. -/
theorem c86_names_kept_validation (E : Ext) (ord : OMap Property → OMap Property) (frags : List FragRef) (n : Nat) (s : St) : ∀ a b, s.base a = some b →
    ∃ b', (validateShapes E ord frags n s).2.base a = some b' ∧ b'.name = b.name ∧ b'.location = b.location :=
  Tag.labels_validateShapes E ord frags n s

/-- C86: so do `ParseFromPath` and `ParseFromString`, with any options, for the types there are before the call. -/
theorem c86_names_kept_parsing (E : Env) (ord : Orders) (n m : Nat) (o : ParseOpts) (s : St) : ∀ a b, s.base a = some b →
    (∀ path, ∃ b', (parseWith E ord n m path o s).2.base a = some b' ∧ b'.name = b.name ∧ b'.location = b.location) ∧
    ∀ content fileName baseDir, ∃ b', (parseStringWith E ord n m content fileName baseDir o s).2.base a = some b' ∧ b'.name = b.name ∧ b'.location = b.location := fun a b h =>
  ⟨fun path => TagParse.parseWith_does ord n m path o s a b h, fun content fileName baseDir => TagParse.parseStringWith_does ord n m content fileName baseDir o s a b h⟩

/-- The annotation types of a library have its location, and their names. -/
theorem ready_located (E : Env) (s : St) (h : Load.Ready E s) {l : Lib} (hl : l ∈ s.libs) {e : String × Addr} (he : e ∈ l.annotationTypes) :
    ∃ b, s.base e.2 = some b ∧ b.location = l.location ∧ b.name = e.1 := by
  obtain ⟨j, hj⟩ := List.mem_iff_getElem?.1 hl
  obtain ⟨d, _, _, h2, _⟩ := Read.LibraryReads.mono (fun _ _ _ _ => Read.describes h.held.loaded) (h.held.new.libs j l (Nat.zero_le _) hj)
  unfold SectionReads Reads at h2
  split at h2
  · rw [h2] at he; cases he
  · obtain ⟨x, h3, h4⟩ := h2
    obtain ⟨i, hi⟩ := List.mem_iff_getElem?.1 (mem_filled x (h4 ▸ he))
    have hi' := (List.getElem?_eq_some_iff.1 hi)
    have hy := h3.get (i := i) (h3.length_eq ▸ hi'.1) hi'.1
    simp only [List.get_eq_getElem, hi'.2] at hy
    obtain ⟨b, _, _, _, _, k1, k3, k2, _⟩ := describes_parts hy.2
    exact ⟨b, k1, k2, k3.trans hy.1.symm⟩

/-- If no path is registered twice, no library is. -/
theorem ready_once (E : Env) (s : St) (h : Load.Ready E s) (hk : (s.fragments.map (·.1)).Nodup) {frags : List FragRef} (hf : frags.Perm (s.fragments.map (·.2))) :
    frags.Pairwise fun f g => ∀ i l j l', f = .library i → g = .library j → s.libs[i]? = some l → s.libs[j]? = some l' → i ≠ j ∧ l.location ≠ l'.location := by
  refine (hf.pairwise_iff fun {f g} hfg i l j l' h1 h2 h3 h4 => ?_).2 ?_
  · obtain ⟨k1, k2⟩ := hfg j l' i l h2 h1 h4 h3
    exact ⟨k1.symm, k2.symm⟩
  · rw [List.pairwise_map]
    refine List.Pairwise.imp_of_mem (fun {e e'} he he' hne i l j l' h1 h2 h3 h4 => ?_) (List.pairwise_map.1 hk)
    have w1 := h.held.loaded.w.frags e he
    have w2 := h.held.loaded.w.frags e' he'
    rw [h1] at w1
    rw [h2] at w2
    obtain ⟨l1, q1, q2⟩ := w1
    obtain ⟨l2, q3, q4⟩ := w2
    rw [h3] at q1; cases q1
    rw [h4] at q3; cases q3
    refine ⟨fun hij => hne ?_, fun hl => hne ?_⟩
    · subst hij
      rw [h3] at h4; cases h4
      exact q2.symm.trans q4
    · rw [← q2, ← q4, hl]

section
variable (E : Env) (s : St) {k : Nat} {frags frags' : List FragRef} (hf : frags.Perm (s.fragments.map (·.2))) (hf' : frags'.Perm (s.fragments.map (·.2))) {s' : St}
  (hr : unwrapShapes k frags frags' s = (.ok (), s')) (h : Successes E {} s)

include hf h

omit hr hf' in
theorem home_once : Tag.Once frags := by
  have hR := Load.ready_successes h
  refine List.Pairwise.imp_of_mem (fun {f g} hfm _ hfg i h1 h2 => ?_) (ready_once E s hR (Files.distinct_calls (Files.calls_successes h)) hf)
  obtain ⟨⟨p, f'⟩, q, rfl⟩ := List.mem_map.1 (hf.mem_iff.1 hfm)
  have := hR.held.loaded.w.frags _ q
  rw [h1] at this
  obtain ⟨l, q1, _⟩ := this
  exact (hfg i l i l h1 h2 q1 q1).1 rfl

include hf' hr

theorem home_run : Tag.Labels s s' ∧
    ∀ d ∈ s'.domainExts, ∀ x, d.definedBy = some x → ∃ i l k, FragRef.library i ∈ s.fragments.map (·.2) ∧ s.libs[i]? = some l ∧ (k, x) ∈ l.annotationTypes := by
  have hl := (Load.ready_successes h).held.loaded
  have hw := Whole.loaded_wf (K := anyValues) hl (fun _ _ _ h => fine_any h) (fun _ _ _ => ⟨fun _ _ => trivial, fun _ _ _ _ _ _ => trivial, fun _ _ => trivial⟩)
    (fun _ _ _ _ => trivial)
  exact Tag.unwrapShapes_exts hw (fun f => hf.mem_iff.1) (home_once E s hf h) (Whole.loaded_there hl (perm_fragments hf)) (Whole.loaded_there hl (perm_fragments hf')) (Whole.loaded_exts hl) hr

/-- C86: the type of an annotation is afterwards a type that a file of the model declared as an annotation type, with the name and the location it had when it was parsed, or nil. -/
theorem c86_annotations : ∀ d ∈ s'.domainExts, d.definedBy = none ∨ ∃ x p i l k b b', d.definedBy = some x ∧ (p, FragRef.library i) ∈ s.fragments ∧ s.libs[i]? = some l ∧
    (k, x) ∈ l.annotationTypes ∧ s.base x = some b ∧ s'.base x = some b' ∧ b.location = l.location ∧ b'.name = b.name ∧ b'.location = b.location := fun d hd => by
  obtain ⟨h1, h2⟩ := home_run E s hf hf' hr h
  cases hd' : d.definedBy with
  | none => exact .inl rfl
  | some x =>
    obtain ⟨i, l, k, q1, q2, q3⟩ := h2 d hd x hd'
    obtain ⟨⟨p, f⟩, q4, rfl⟩ := List.mem_map.1 q1
    obtain ⟨b, q5, q6, _⟩ := ready_located E s (Load.ready_successes h) (List.mem_of_getElem? q2) q3
    obtain ⟨b', q7, q8, q9⟩ := h1 x b q5
    exact .inr ⟨x, p, i, l, k, b, b', rfl, q4, q2, q3, q5, q7, q6, q8, q9⟩

/-- The file of the type of each annotation declares annotation types. -/
theorem annotations_home (hx : ∀ d ∈ s'.domainExts, d.definedBy ≠ none) : AnnotationsHome s' := fun d hd => by
  rcases c86_annotations E s hf hf' hr h d hd with h1 | ⟨x, p, i, l, nm, b, b', q1, q2, q3, q4, q5, q6, q7, q8, q9⟩
  · exact absurd h1 (hx d hd)
  · have ho := (loaded_model_kept E s (Load.ready_successes h).held.loaded k hf hf').2
    rw [hr] at ho
    have hl : (s'.libs.map Lib.Outline)[i]? = some (Lib.Outline l) := by rw [ho.libs, List.getElem?_map, q3]; rfl
    rw [List.getElem?_map] at hl
    obtain ⟨l', hl', hol⟩ := Option.map_eq_some_iff.1 hl
    simp only [Lib.Outline, Prod.mk.injEq] at hol
    refine ⟨x, b', p, i, l', q1, q6, ho.fragments ▸ q2, hl', by rw [q9, q7]; exact hol.1, fun h0 => ?_⟩
    have := hol.2.2.2
    rw [h0] at this
    have := congrArg List.length this
    simp only [List.map_nil, List.length_nil, List.length_map] at this
    rw [List.eq_nil_of_length_eq_zero this.symm] at q4
    cases q4

/-- C86: hence a second `UnwrapShapes` succeeds and keeps the model, if no annotation has lost its type in the first. -/
theorem c86_unwrapped_again {again again' : List FragRef} (ha : again.Perm (s'.fragments.map (·.2))) (ha' : again'.Perm (s'.fragments.map (·.2)))
    (hx : ∀ d ∈ s'.domainExts, d.definedBy ≠ none) : ∃ N t, (∀ n, N ≤ n → unwrapShapes n again again' s' = (.ok (), t)) ∧ StillSame s' t :=
  c85_succeeds E s hf hf' hr h ha ha' hx (annotations_home E s hf hf' hr h hx)

/-- C86: if there are no unions and no annotation type has an ancestor that allows every value, all annotations are as they were. -/
theorem c86_annotations_kept (hu : NoUnions s) (ha : AnnotationTypesDeclared s)
    (hany : ∀ p i l e r, (p, FragRef.library i) ∈ s.fragments → s.libs[i]? = some l → e ∈ l.annotationTypes → AncestorOf s r e.2 → s.shapeAt r ≠ some .any) :
    s'.domainExts = s.domainExts := by
  have hR := Load.ready_successes h
  have hl := hR.held.loaded
  have hw := Whole.loaded_wf (K := anyValues) hl (fun _ _ _ h => fine_any h) (fun _ _ _ => ⟨fun _ _ => trivial, fun _ _ _ _ _ _ => trivial, fun _ _ => trivial⟩)
    (fun _ _ _ _ => trivial)
  obtain ⟨s1, st, hlibs, hsig, hext⟩ := Tag.unwrapShapes_steps hw (fun f => hf.mem_iff.1) (home_once E s hf h) (Whole.loaded_there hl (perm_fragments hf))
    (Whole.loaded_there hl (perm_fragments hf')) (Whole.loaded_exts hl) hr
  have parts : ∀ f, ∀ e ∈ Tag.entries s f, ∃ l, f = .library e.lib ∧ s.libs[e.lib]? = some l ∧ l.location = e.loc ∧ (e.key, e.type) ∈ l.annotationTypes := fun f e he => by
    cases f with
    | library i =>
      cases hi : s.libs[i]? with
      | none => simp [Tag.entries, hi] at he
      | some l =>
        simp only [Tag.entries, hi, List.mem_map] at he
        obtain ⟨ka, h1, rfl⟩ := he
        exact ⟨l, rfl, hi, rfl, h1⟩
    | dataType i => cases he
    | namedExample i => cases he
  let nm : Addr → String := fun a => ((s.base a).map (·.name)).getD ""
  have named : ∀ {i : Nat} {l : Lib} {e : String × Addr}, s.libs[i]? = some l → e ∈ l.annotationTypes → nm e.2 = e.1 := fun h1 h2 => by
    obtain ⟨b, q1, _, q2⟩ := ready_located E s hR (List.mem_of_getElem? h1) h2
    simp only [nm, q1, Option.map_some, Option.getD_some, q2]
  have hpair : (frags.flatMap (Tag.entries s)).Pairwise fun x y => (x.lib = y.lib → x.key ≠ y.key) ∧ (x.loc = y.loc → nm x.type ≠ nm y.type) := by
    rw [List.pairwise_flatMap]
    refine ⟨fun f _ => ?_, ?_⟩
    · cases f with
      | library i =>
        cases hi : s.libs[i]? with
        | none => simp [Tag.entries, hi]
        | some l =>
          simp only [Tag.entries, hi, List.pairwise_map]
          refine List.Pairwise.imp_of_mem (fun {x y} hx hy hne => ⟨fun _ => hne, fun _ => ?_⟩) (List.pairwise_map.1 (ready_named E s hR l (List.mem_of_getElem? hi)).1)
          rw [named hi hx, named hi hy]
          exact hne
      | dataType i => exact List.Pairwise.nil
      | namedExample i => exact List.Pairwise.nil
    · refine List.Pairwise.imp (fun {f g} hfg x hx y hy => ?_) (ready_once E s hR (Files.distinct_calls (Files.calls_successes h)) hf)
      obtain ⟨l, q1, q2, q3, _⟩ := parts f x hx
      obtain ⟨l', q4, q5, q6, _⟩ := parts g y hy
      obtain ⟨k1, k2⟩ := hfg _ l _ l' q1 q4 q2 q5
      exact ⟨fun h => absurd h k1, fun h => absurd (q3.trans (h.trans q6.symm)) k2⟩
  have hown : ∀ e ∈ frags.flatMap (Tag.entries s), Tag.annAt s1 e.lib e.key = some e.type := fun e he => by
    obtain ⟨f, hfm, hef⟩ := List.mem_flatMap.1 he
    obtain ⟨l, q1, q2, _, q4⟩ := parts f e hef
    obtain ⟨⟨p, f'⟩, q5, q6⟩ := List.mem_map.1 (hf.mem_iff.1 hfm)
    simp only at q6
    subst q6
    rw [q1] at q5
    obtain ⟨l', h1, _, h2, _, h3⟩ := ready_names E s hR hu hf hf' hr q2
    have hx : e.key ∈ l'.annotationTypes.map (·.1) := by rw [h2]; exact List.mem_map_of_mem (f := (·.1)) q4
    obtain ⟨x, hx1, hx2⟩ := List.mem_map.1 hx
    have hnd : (l'.annotationTypes.map (·.1)).Nodup := by rw [h2]; exact (ready_named E s hR l (List.mem_of_getElem? q2)).1
    have : x.2 = e.type := by
      rcases h3 e.key e.type x.2 q4 (hx2 ▸ hx1) with h4 | ⟨h4, h5⟩
      · exact h4
      · exact absurd h5 (hany p _ l _ _ q5 q2 q4 h4)
    simp only [Tag.annAt, ← hlibs, h1, Option.bind_some]
    rw [← hx2, ← this]
    exact Tag.get_of_mem hnd hx1
  obtain ⟨_, htab⟩ := st.tab nm (fun e he => by
    obtain ⟨f, _, hef⟩ := List.mem_flatMap.1 he
    obtain ⟨l, _, q2, _, q4⟩ := parts f e hef
    obtain ⟨b, q5, _, q6⟩ := ready_located E s hR (List.mem_of_getElem? q2) q4
    exact ⟨b, q5, by rw [named q2 q4]; exact q6⟩) hpair hown
  have hlen : s'.domainExts.length = s.domainExts.length := by have := congrArg List.length hsig; simpa using this
  refine List.ext_getElem hlen fun i h1 h2 => ?_
  obtain ⟨a, b, k1, k2, k3⟩ := hext i _ _ (List.getElem?_eq_getElem h2) (List.getElem?_eq_getElem h1)
  obtain ⟨p, j, l, e, q1, q2, q3, rfl⟩ := ha _ (List.getElem_mem h2) a k1
  obtain ⟨b', q4, q5, q6⟩ := ready_located E s hR (List.mem_of_getElem? q2) q3
  rw [k2] at q4; cases q4
  have hmem : (⟨j, l.location, e.1, e.2⟩ : Tag.Entry) ∈ frags.flatMap (Tag.entries s) := List.mem_flatMap.2
    ⟨.library j, hf.mem_iff.2 (List.mem_map.2 ⟨_, q1, rfl⟩), by simp only [Tag.entries, q2]; exact List.mem_map.2 ⟨e, q3, rfl⟩⟩
  have := htab _ hmem
  simp only [named q2 q3] at this
  rw [q5, q6, this] at k3
  have hs := congrArg (·[i]?) hsig
  simp only [List.getElem?_map, List.getElem?_eq_getElem h1, List.getElem?_eq_getElem h2, Option.map_some, Option.some.injEq, Whole.esig, Prod.mk.injEq] at hs
  generalize s'.domainExts[i] = d' at *
  generalize s.domainExts[i] = d at *
  cases d; cases d'
  simp only at *
  simp_all

end

/-- The hypotheses of C86 are met, by a model with an annotation; it has its type after unwrapping. -/
example : Successes (exTwiceEnv false) {} (exTwiceModel false) ∧ exUnwrapOn (exTwiceModel false) = (.ok (), (exUnwrapOn (exTwiceModel false)).2) ∧
    ((exTwiceModel false).fragments.map (·.1)).Nodup ∧ (exUnwrapOn (exTwiceModel false)).2.domainExts.map (·.definedBy) = [some 0] ∧ (exTwiceModel false).bases.length = 4 ∧
    NoUnions (exTwiceModel false) ∧ AnnotationTypesDeclared (exTwiceModel false) ∧
    ∀ p i l e r, (p, FragRef.library i) ∈ (exTwiceModel false).fragments → (exTwiceModel false).libs[i]? = some l → e ∈ l.annotationTypes → AncestorOf (exTwiceModel false) r e.2 →
      (exTwiceModel false).shapeAt r ≠ some .any := by
  have ok : ∀ {r : Out Unit × St}, r.1 = .ok () → r = (.ok (), r.2) := fun {r} h => by cases r; cases h; rfl
  have hfr : (exTwiceModel false).fragments = [("a.raml", .library 0)] := by decide +kernel
  have hla : (exTwiceModel false).libs.map (·.annotationTypes) = [[("note", 0)]] := by decide +kernel
  have hdx : (exTwiceModel false).domainExts.map (·.definedBy) = [some 0] := by decide +kernel
  have hb : ((exTwiceModel false).base 0).map (fun b => (b.alias, b.link, (exTwiceModel false).slice b.inherits)) = some (none, none, []) := by decide +kernel
  have hu : ((exTwiceModel false).bases.all fun b => match b.shape with | some (.union _ _) => false | _ => true) = true := by decide +kernel
  have root : ∀ r, ¬ DerivesFrom (exTwiceModel false) 0 r := fun r hd => by
    obtain ⟨b, h1, h2⟩ := Option.map_eq_some_iff.1 hb
    simp only [Prod.mk.injEq] at h2
    cases hd with
    | «alias» k1 k2 => rw [h1] at k1; cases k1; rw [h2.1] at k2; cases k2
    | include_ k1 k2 _ _ => rw [h1] at k1; cases k1; rw [h2.2.1] at k2; cases k2
    | parent k1 k2 => rw [h1] at k1; cases k1; rw [h2.2.2] at k2; cases k2
  refine ⟨.call .none (n := 20) (m := 20) (path := "a.raml") (by decide +kernel) (exParses c85_types_gone.1), ok c85_types_gone.2.1, by rw [hfr]; simp, by decide +kernel,
    by decide +kernel, fun a b l e hb hq => ?_, fun d hd a ha => ?_, fun p i l e r hp hl he hr => ?_⟩
  · have := List.all_eq_true.1 hu b (List.mem_of_getElem? hb)
    rw [hq] at this
    cases this
  · have := List.mem_map_of_mem (f := (·.definedBy)) hd
    rw [hdx, List.mem_singleton, ha] at this
    cases this
    obtain ⟨l, h1, h2⟩ := List.map_eq_singleton_iff.1 hla
    exact ⟨"a.raml", 0, l, ("note", 0), by rw [hfr]; simp, by rw [h1]; rfl, by rw [h2]; simp, rfl⟩
  · have := List.mem_map_of_mem (f := (·.annotationTypes)) (List.mem_of_getElem? hl)
    rw [hla, List.mem_singleton] at this
    rw [this, List.mem_singleton] at he
    subst he
    obtain ⟨x, hx, _⟩ := Relation.TransGen.head'_iff.1 hr
    exact absurd hx (root x)

/-! ## The type of an annotation is exchanged -/

/-- A library with an annotation of the annotation type `Root`, which is a string, and two annotation types derived from a type `Root` that allows every value. -/
def exSwapEnv : Env := exFilesEnv [
  ("a.raml", "#%RAML 1.0 Library\na", exDoc [
    ("(Root)", .str "x"),
    ("annotationTypes", exMap [("Root", .str "string"), ("other", exMap [("type", .str "Root")]), ("another", exMap [("type", .str "Root")])]),
    ("types", exMap [("Root", .str "any")])])]

/-- The library, parsed. -/
def exSwapModel : St := (parseFromPath exSwapEnv 20 20 "a.raml" {}).2

/-- C86, the violation of more: the annotation has its own type after parsing; `UnwrapShapes` succeeds and gives it another annotation type of the file, which has another name. -/
theorem c86_type_exchanged :
    exResult (parseFromPath exSwapEnv 20 20 "a.raml" {}) = some (.library 0) ∧
    exSwapModel.libs.map (·.annotationTypes) = [[("Root", 0), ("other", 1), ("another", 2)]] ∧
    exSwapModel.domainExts.map (fun d => (d.name, d.definedBy)) = [("Root", some 0)] ∧ (exUnwrapOn exSwapModel).1 = .ok () ∧
    (exUnwrapOn exSwapModel).2.domainExts.map (fun d => (d.name, d.definedBy)) = [("Root", some 2)] ∧
    ((exUnwrapOn exSwapModel).2.base 2).map (·.name) = some "another" :=
  ⟨by decide +kernel, by decide +kernel, by decide +kernel, by decide +kernel, by decide +kernel, by decide +kernel⟩

end GoRaml.Props
