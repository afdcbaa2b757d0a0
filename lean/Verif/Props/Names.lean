import Verif.Lemmas.Names
import Verif.Props.Validate

/-!
# C35, C36, C43, C55: names, lookup and fragment heads
-/

namespace GoRaml.Props

open GoRaml Spec

/-! ## C35 -/

/-- C35: `CutLast` splits at the last occurrence of the separator, for lists of bytes or characters and any separator. -/
theorem c35_cut_last {α : Type} [DecidableEq α] (s sep : List α) :
    (∀ b a, cutLast s sep = (b, a, true) ↔ s = b ++ sep ++ a ∧ ∀ b' a', s = b' ++ sep ++ a' → b'.length ≤ b.length) ∧
    ((cutLast s sep).2.2 = false ↔ ¬ sep <:+: s) ∧
    ((cutLast s sep).2.2 = false → cutLast s sep = (s, [], false)) :=
  ⟨fun _ _ => cutLast_true, cutLast_false.trans (not_congr ⟨fun ⟨b, a, h⟩ => ⟨b, a, h.symm⟩, fun ⟨b, a, h⟩ => ⟨b, a, h.symm⟩⟩),
    cutLast_false_val⟩

/-- C35 for reference names: a name is split iff it has a dot; the parts join to the name, the second has no dot; and a join splits
into its parts. -/
theorem c35_reference_name (name : String) :
    (∀ b a, cutReferenceName name = (b, a, true) ↔ name = b ++ "." ++ a ∧ '.' ∉ a.toList) ∧
    ((cutReferenceName name).2.2 = false ↔ '.' ∉ name.toList) ∧
    ('.' ∉ name.toList → cutReferenceName name = (name, "", false)) :=
  ⟨fun _ _ => cutReferenceName_true, cutReferenceName_false, fun h => cutReferenceName_false_val (cutReferenceName_false.2 h)⟩

/-- C35: joining and splitting again. -/
theorem c35_round_trip (b a : String) (h : '.' ∉ a.toList) : cutReferenceName (b ++ "." ++ a) = (b, a, true) :=
  cutReferenceName_true.2 ⟨rfl, h⟩

example : cutReferenceName "lib.types.Name" = ("lib.types", "Name", true) := c35_round_trip "lib.types" "Name" (by decide)

/-! ## C36 -/

/-- C36: a lookup in a library yields a type iff the name means that type there. -/
theorem c36_library_lookup (h : St) (l : Lib) (sel : Lib → OMap Addr) (name : String) (r : Addr) :
    l.getReference h sel name = .ok r ↔ LibMeans h l sel name r := by
  unfold Lib.getReference
  rcases cut_cases name with ⟨b, a, hc, hd⟩ | ⟨hc, hd⟩
  · rw [hc]
    simp only [Bool.not_true, Bool.false_eq_true, if_false]
    cases hg : OMap.get (sel l) name with
    | some r' =>
      simp only [Out.ok.injEq]
      constructor
      · rintro rfl; exact .own hg
      · rintro (h1 | h1)
        · rw [hg] at h1; cases h1; rfl
        · rw [hg] at h1; cases h1
    | none =>
      simp only [lookupUsed_ok]
      constructor
      · rintro ⟨lib, h1, h2⟩; exact .used hg hd h1 h2
      · rintro (h1 | ⟨_, h2, h3, h4⟩)
        · rw [hg] at h1; cases h1
        · obtain ⟨rfl, rfl⟩ := dotted_unique hd h2
          exact ⟨_, h3, h4⟩
  · rw [hc]
    simp only [Bool.not_false, if_true]
    cases hg : OMap.get (sel l) name with
    | some r' =>
      simp only [Out.ok.injEq]
      constructor
      · rintro rfl; exact .own hg
      · rintro (h1 | h1)
        · rw [hg] at h1; cases h1; rfl
        · rw [hg] at h1; cases h1
    | none =>
      simp only [reduceCtorEq, false_iff]
      rintro (h1 | ⟨_, h2, _, _⟩)
      · rw [hg] at h1; cases h1
      · exact hd _ _ h2

/-- C36: when all used libraries are loaded, a lookup returns an error iff the name means nothing. -/
theorem c36_library_lookup_fails (h : St) (l : Lib) (sel : Lib → OMap Addr) (name : String) (hl : AllLoaded h l.uses) :
    (∃ e, l.getReference h sel name = .err e) ↔ ∀ r, ¬ LibMeans h l sel name r := by
  constructor
  · rintro ⟨e, he⟩ r hr
    rw [← c36_library_lookup, he] at hr; cases hr
  · intro hn
    simp only [← c36_library_lookup] at hn
    unfold Lib.getReference at hn ⊢
    rcases cut_cases name with ⟨b, a, hc, hd⟩ | ⟨hc, hd⟩ <;> rw [hc] at hn ⊢
    · simp only [Bool.not_true, Bool.false_eq_true, if_false] at hn ⊢
      cases hg : OMap.get (sel l) name with
      | some r' => rw [hg] at hn; exact absurd rfl (hn r')
      | none =>
        rw [hg] at hn
        exact lookupUsed_err hl fun ⟨r, hr⟩ => hn r hr
    · simp only [Bool.not_false, if_true] at hn ⊢
      cases hg : OMap.get (sel l) name with
      | some r' => rw [hg] at hn; exact absurd rfl (hn r')
      | none => exact ⟨_, rfl⟩

/-- C36 for data type fragments. -/
theorem c36_data_type_lookup (h : St) (d : DT) (sel : Lib → OMap Addr) (name : String) :
    (∀ r, d.getReference h sel name = .ok r ↔ DTMeans h d sel name r) ∧
    (AllLoaded h d.uses → ((∃ e, d.getReference h sel name = .err e) ↔ ∀ r, ¬ DTMeans h d sel name r)) := by
  have hok : ∀ r, d.getReference h sel name = .ok r ↔ DTMeans h d sel name r := by
    intro r
    unfold DT.getReference
    rcases cut_cases name with ⟨b, a, hc, hd⟩ | ⟨hc, hd⟩ <;> rw [hc]
    · simp only [Bool.not_true, Bool.false_eq_true, if_false, lookupUsed_ok]
      constructor
      · rintro ⟨lib, h1, h2⟩; exact .used hd h1 h2
      · rintro ⟨h2, h3, h4⟩
        obtain ⟨rfl, rfl⟩ := dotted_unique hd h2
        exact ⟨_, h3, h4⟩
    · simp only [Bool.not_false, if_true, reduceCtorEq, false_iff]
      rintro ⟨h2, _, _⟩
      exact hd _ _ h2
  refine ⟨hok, fun hl => ⟨?_, fun hn => ?_⟩⟩
  · rintro ⟨e, he⟩ r hr
    rw [← hok, he] at hr; cases hr
  · simp only [← hok] at hn
    unfold DT.getReference at hn ⊢
    rcases cut_cases name with ⟨b, a, hc, hd⟩ | ⟨hc, hd⟩ <;> rw [hc] at hn ⊢
    · simp only [Bool.not_true, Bool.false_eq_true, if_false] at hn ⊢
      exact lookupUsed_err hl fun ⟨r, hr⟩ => hn r hr
    · exact ⟨_, rfl⟩

/-- A library with an own dotted name, and a used one (which uses a third). -/
def exLibs : St :=
  { libs := [{ types := [("A", 0), ("b.C", 1)], uses := [("b", ("b.raml", some 1))] },
      { types := [("C", 2), ("D", 3)], uses := [("c", ("c.raml", some 2))] }, { types := [("E", 4)] }] }

/-- The own dotted name wins; `b.D` is found in the used library; `b.c.E` is not found, lookups are not transitive. -/
example : ∃ l, exLibs.libs[0]? = some l ∧ AllLoaded exLibs l.uses ∧ l.getReference exLibs Lib.types "b.C" = .ok 1 ∧
    l.getReference exLibs Lib.types "b.D" = .ok 3 ∧ l.getReference exLibs Lib.types "b.c.E" = .err "library not found" := by
  refine ⟨_, rfl, ?_, by decide +kernel, by decide +kernel, by decide +kernel⟩
  intro as path link h
  simp only [OMap.get] at h
  split at h
  · cases h; exact ⟨1, _, rfl, rfl⟩
  · cases h

/-! ## C43 -/

theorem chomp_mark (n : String) : chompImplicitOptional (n ++ "?") = (n, true) := by
  unfold chompImplicitOptional
  have : (n ++ "?").toList = n.toList ++ ['?'] := by simp
  rw [this]
  simp

theorem chomp_plain {n : String} (h : ∀ m, n ≠ m ++ "?") : chompImplicitOptional n = (n, false) := by
  unfold chompImplicitOptional
  rw [if_neg]
  intro hl
  obtain ⟨l, hl⟩ := List.getLast?_eq_some_iff.1 hl
  exact h (String.ofList l) (by rw [← String.toList_inj]; simpa using hl)

theorem patternName_iff {n : String} : isPatternName n = true ↔ ∃ p, PatternName n p ∧ patternOf n = p := by
  unfold isPatternName PatternName patternOf
  simp only [Bool.and_eq_true, decide_eq_true_eq, beq_iff_eq]
  constructor
  · rintro ⟨⟨h1, h2⟩, h3⟩
    refine ⟨_, ?_, rfl⟩
    rw [← String.toList_inj]
    cases hn : n.toList with
    | nil => rw [hn] at h2; cases h2
    | cons c t =>
      rw [hn] at h2 h3 h1
      simp only [List.head?_cons, Option.some.injEq] at h2
      have ht : t ≠ [] := by rintro rfl; simp at h1
      rw [List.getLast?_cons, Option.some.injEq] at h3
      obtain ⟨u, x, rfl⟩ : ∃ u x, t = u ++ [x] := ⟨t.dropLast, t.getLast ht, (List.dropLast_append_getLast ht).symm⟩
      simp at h3
      simp [h2, h3]
  · rintro ⟨p, rfl, _⟩
    have : ("/" ++ p ++ "/").toList = '/' :: (p.toList ++ ['/']) := by simp
    rw [this]
    simp [List.getLast?_cons]

/-- C43, properties: a name with a trailing question mark and no `required` facet declares an optional property without the mark; a name
without the mark declares a property that is required unless a `required` facet says otherwise; with the mark and a `required` facet the
name is kept as written and the facet decides. -/
theorem c43_property (E : Ext) (n : String) (a : Addr) :
    ((¬ ∃ p, PatternName n p) → declareProperty E (n ++ "?") (.ok (a, none)) = .ok (.property { name := n, base := a, required := false })) ∧
    ((¬ ∃ p, PatternName n p) → ∀ r, declareProperty E (n ++ "?") (.ok (a, some r)) =
      .ok (.property { name := n ++ "?", base := a, required := r })) ∧
    ((¬ ∃ p, PatternName n p) → (∀ m, n ≠ m ++ "?") → declareProperty E n (.ok (a, none)) =
      .ok (.property { name := n, base := a, required := true })) ∧
    ((¬ ∃ p, PatternName n p) → (∀ m, n ≠ m ++ "?") → ∀ r, declareProperty E n (.ok (a, some r)) =
      .ok (.property { name := n, base := a, required := r })) := by
  have hp : (¬ ∃ p, PatternName n p) → isPatternName n = false := by
    intro hn
    cases h : isPatternName n with
    | false => rfl
    | true => obtain ⟨p, h1, _⟩ := patternName_iff.1 h; exact absurd ⟨p, h1⟩ hn
  refine ⟨fun hn => ?_, fun hn r => ?_, fun hn hm => ?_, fun hn hm r => ?_⟩
  · simp [declareProperty, chomp_mark, Out.bind, hp hn, nameProperty]
  · simp [declareProperty, chomp_mark, Out.bind, hp hn, nameProperty]
  · simp [declareProperty, chomp_plain hm, Out.bind, hp hn, nameProperty]
  · simp [declareProperty, chomp_plain hm, Out.bind, hp hn, nameProperty]

/-- C43, pattern properties: `/p/` declares a pattern property with the expression `p`, without `required` facet or trailing
question mark, if the expression compiles. -/
theorem c43_pattern (E : Ext) (p : String) (a : Addr) (r : Option Bool) :
    declareProperty E ("/" ++ p ++ "/" ++ "?") (.ok (a, r)) = .err "'required' facet is not supported on pattern property" ∧
    (r ≠ none → declareProperty E ("/" ++ p ++ "/") (.ok (a, r)) = .err "'required' facet is not supported on pattern property") ∧
    declareProperty E ("/" ++ p ++ "/") (.ok (a, none)) =
      (if E.reCompiles p then .ok (.pattern ("/" ++ p ++ "/") { pattern := p, base := a }) else .err "compile pattern") := by
  have hpat : isPatternName ("/" ++ p ++ "/") = true ∧ patternOf ("/" ++ p ++ "/") = p := by
    refine ⟨patternName_iff.2 ⟨p, rfl, ?_⟩, ?_⟩ <;>
    · unfold patternOf
      rw [← String.toList_inj]
      simp
  have hplain : chompImplicitOptional ("/" ++ p ++ "/") = ("/" ++ p ++ "/", false) := by
    refine chomp_plain fun m hm => ?_
    have h1 := congrArg (fun s : String => s.toList.getLast?) hm
    simp [List.getLast?_cons] at h1
  refine ⟨?_, fun hr => ?_, ?_⟩
  · simp [declareProperty, chomp_mark, Out.bind, hpat.1]
  · obtain ⟨r, rfl⟩ := Option.ne_none_iff_exists'.1 hr
    simp [declareProperty, hplain, Out.bind, hpat.1]
  · simp [declareProperty, hplain, Out.bind, hpat.1, hpat.2]

/-- C43: both spellings of one property collide: `a` and `a?` declare the same key, so the later declaration replaces the
earlier one in the property map. -/
theorem c43_collision (E : Ext) (n : String) (a b : Addr) (hn : ¬ ∃ p, PatternName n p) (hm : ∀ m, n ≠ m ++ "?") :
    ∃ p q : Property, declareProperty E n (.ok (a, none)) = .ok (.property p) ∧
      declareProperty E (n ++ "?") (.ok (b, none)) = .ok (.property q) ∧
      OMap.set (OMap.set [] p.name p) q.name q = [(n, q)] :=
  ⟨_, _, (c43_property E n a).2.2.1 hn hm, (c43_property E n b).1 hn, by simp [OMap.set]⟩

example : (¬ ∃ p, PatternName "name" p) ∧ ∀ m, "name" ≠ m ++ "?" := by
  constructor
  · rintro ⟨p, hp⟩
    have := congrArg (fun s : String => s.toList.head?) hp
    simp at this
  · intro m hm
    have := congrArg (fun s : String => s.toList.getLast?) hm
    simp at this

/-- C43: an annotation key `(name)` yields the name, and no key accepted as an annotation makes the code panic. -/
theorem c43_annotation_key (key : String) (h : isCustomDomainExtensionNode key = true) :
    (∃ n, key = "(" ++ n ++ ")" ∧ n ≠ "" ∧ annotationName key = .ok n) ∨
    (key = "()" ∧ annotationName key = .err "annotation name must not be empty") := by
  unfold isCustomDomainExtensionNode at h
  simp only [Bool.and_eq_true, beq_iff_eq] at h
  obtain ⟨h1, h2⟩ := h
  cases hk : key.toList with
  | nil => rw [hk] at h1; cases h1
  | cons c t =>
    rw [hk] at h1 h2
    simp only [List.head?_cons, Option.some.injEq] at h1
    have ht : t ≠ [] := by
      rintro rfl
      simp only [List.getLast?_singleton, Option.some.injEq] at h2
      rw [h1] at h2; exact absurd h2 (by decide)
    obtain ⟨u, x, rfl⟩ : ∃ u x, t = u ++ [x] := ⟨t.dropLast, t.getLast ht, (List.dropLast_append_getLast ht).symm⟩
    have hx : x = ')' := by
      rw [List.getLast?_cons] at h2; simpa using h2
    subst h1 hx
    have hkey : key = "(" ++ String.ofList u ++ ")" := by
      rw [← String.toList_inj, hk]; simp
    unfold annotationName
    rw [hk]
    by_cases hu : u = []
    · subst hu
      exact Or.inr ⟨hkey, by simp⟩
    · refine Or.inl ⟨String.ofList u, hkey, ?_, by simp [hu]⟩
      intro hcon
      apply hu
      have := congrArg String.toList hcon
      simpa using this

example : isCustomDomainExtensionNode "(note)" = true ∧ annotationName "(note)" = .ok "note" := by decide

/-! ## C55 -/

theorem readHead_ok {content head : String} (hno : '\n' ∉ head.toList)
    (hlast : ∀ c ∈ head.toList.getLast?, (c = '\r' || c = '\n' || c = ' ') = false) :
    readHead content = .ok head ↔
      ∃ pad rest : String, (∀ c ∈ pad.toList, c = ' ' ∨ c = '\r') ∧ content = head ++ pad ++ "\n" ++ rest := by
  unfold readHead
  constructor
  · intro h
    cases hr : readLine content.toList with
    | none => rw [hr] at h; cases h
    | some l =>
      rw [hr] at h
      simp only [Out.ok.injEq] at h
      obtain ⟨a, b, h1, rfl, h3⟩ := readLine_some.1 hr
      obtain ⟨t, ht1, ht2⟩ := trimRight_split (fun c => c = '\r' || c = '\n' || c = ' ') (a ++ ['\n'])
      have hh : trimRight (fun c => c = '\r' || c = '\n' || c = ' ') (a ++ ['\n']) = head.toList := by
        rw [← h]; simp
      rw [hh] at ht1
      have htne : t ≠ [] := by
        rintro rfl
        rw [List.append_nil] at ht1
        exact hno (by rw [← ht1]; simp)
      obtain ⟨u, x, rfl⟩ : ∃ u x, t = u ++ [x] := ⟨t.dropLast, t.getLast htne, (List.dropLast_append_getLast htne).symm⟩
      rw [← List.append_assoc] at ht1
      obtain ⟨ha, hx⟩ := List.append_inj' ht1 rfl
      refine ⟨String.ofList u, String.ofList b, fun c hc => ?_, ?_⟩
      · simp only [String.toList_ofList] at hc
        have h4 := ht2 c (List.mem_append_left _ hc)
        have h5 : c ≠ '\n' := by
          rintro rfl
          exact h3 (by rw [ha]; exact List.mem_append_right _ hc)
        simp only [Bool.or_eq_true, decide_eq_true_eq] at h4
        rcases h4 with (h4 | h4) | h4
        · exact Or.inr h4
        · exact absurd h4 h5
        · exact Or.inl h4
      · rw [← String.toList_inj, h1, ha]; simp
  · rintro ⟨pad, rest, hp, rfl⟩
    have hnl : '\n' ∉ head.toList ++ pad.toList := by
      intro h
      rcases List.mem_append.1 h with h | h
      · exact hno h
      · rcases hp _ h with h | h <;> exact absurd h (by decide)
    have hr : readLine (head ++ pad ++ "\n" ++ rest).toList = some (head.toList ++ pad.toList ++ ['\n']) :=
      readLine_some.2 ⟨_, rest.toList, by simp, rfl, hnl⟩
    rw [hr]
    simp only [Out.ok.injEq]
    rw [List.append_assoc, trimRight_append hlast]
    · simp
    · intro c hc
      rcases List.mem_append.1 hc with hc | hc
      · rcases hp c hc with rfl | rfl <;> decide
      · simp at hc; subst hc; decide

/-- C55: a content is identified as a fragment of a kind iff its first line is that kind's header, followed by nothing but spaces
and carriage returns, whatever comes after. -/
theorem c55_fragment_kind (content : String) (k : FragmentKind) :
    (readHead content).bind identifyFragment = .ok k ↔
      ∃ pad rest : String, (∀ c ∈ pad.toList, c = ' ' ∨ c = '\r') ∧ content = header k ++ pad ++ "\n" ++ rest := by
  rw [← readHead_ok (by cases k <;> decide) (by cases k <;> decide)]
  constructor
  · intro h
    cases hr : readHead content with
    | ok head =>
      rw [hr] at h
      simp only [Out.bind, identifyFragment] at h
      split at h
      · cases h; rename_i e; rw [e]; rfl
      · split at h
        · cases h; rename_i e; rw [e]; rfl
        · split at h
          · cases h; rename_i e; rw [e]; rfl
          · cases h
    | err e => rw [hr] at h; cases h
    | panic e => rw [hr] at h; cases h
    | diverge => rw [hr] at h; cases h
  · intro h
    rw [h]
    cases k <;> decide

/-- C55: `CheckFragmentKind` accepts exactly the files of the expected kind, and JSON files where a data type is expected. -/
theorem c55_check_kind (path content : String) (k : FragmentKind) :
    checkFragmentKind path content k = .ok () ↔
      (k = .dataType ∧ ".json".toList <:+ path.toList) ∨
      ∃ pad rest : String, (∀ c ∈ pad.toList, c = ' ' ∨ c = '\r') ∧ content = header k ++ pad ++ "\n" ++ rest := by
  rw [← c55_fragment_kind]
  unfold checkFragmentKind
  by_cases hj : k = .dataType ∧ ".json".toList <:+ path.toList
  · rw [if_pos hj]; exact ⟨fun _ => Or.inl hj, fun _ => rfl⟩
  · rw [if_neg hj]
    simp only [hj, false_or]
    cases hr : readHead content with
    | ok head =>
      simp only [Out.bind]
      cases hi : identifyFragment head with
      | ok f =>
        by_cases hf : f = k
        · simp [hf]
        · simp [hf]
      | err e => simp
      | panic e => simp
      | diverge => simp
    | err e => simp [Out.bind]
    | panic e => simp [Out.bind]
    | diverge => simp [Out.bind]

/-- C55: a content without a line end is never accepted, even if it is a header. -/
theorem c55_no_newline (content : String) (h : '\n' ∉ content.toList) : readHead content = .err "read fragment head" := by
  unfold readHead
  cases hr : readLine content.toList with
  | none => rfl
  | some l =>
    obtain ⟨a, b, h1, _, _⟩ := readLine_some.1 hr
    exact absurd (by rw [h1]; simp) h

example : (readHead "#%RAML 1.0 Library \r\ntypes:\n").bind identifyFragment = .ok .library := by decide

end GoRaml.Props
