import Verif.Lemmas.LoadDecode

/-!
# Loading: making a type keeps the invariant
-/

namespace GoRaml.Load

open GoRaml GoRaml.Spec

section
variable {E : Env} {K : Ctl} {T : String → Prop} {c : Calls} {loc : String} {P π : Perm} {s : St} {a : Addr}

/-- Writing to `a` is allowed, and either it is under construction or it has a known type. -/
def Open (P : Perm) (a : Addr) (b : Base) : Prop := P.b a ∨ Kind (emptyShape b.type) ≠ "unknown"

theorem only_le (h : ∀ p, T p → π.f p) : Perm.Le s (only T) π := ⟨fun _ _ h => h.elim, fun _ _ h => h.elim, fun _ _ h => h.elim, h⟩

theorem addB_self : (π.addB a).b a := Or.inr rfl

theorem only_addB : Perm.Le s (only T) ((only T).addB a) := only_le fun _ h => h

theorem BaseIn.setShape {b : Base} {sh : Shape} (h : BaseIn s b) (hs : ShapeIn s sh) : BaseIn s { b with shape := some sh } :=
  ⟨ifSome_some hs, h.facets, h.facetDefs, h.alias, h.inherits, h.link⟩

/-- Setting a shape of the right kind. -/
theorem Run.setShape {b : Base} {sh : Shape} {r : Prop} (hw : W E P s) (hx : K.X s) (hπ : π.b a) (hb : s.base a = some b) (hs : ShapeIn s sh)
    (ho : Open P a b) (hk : Kind sh = Kind (emptyShape b.type)) :
    Run E K r P π (setShape a sh) s (fun _ s' => s'.base a = some { b with shape := some sh } ∧ ShapeIn s' sh) := by
  unfold GoRaml.setShape
  refine (Run.updBase hw hx hπ ?_).post fun _ s' _ g h => ?_
  · intro b' hb'
    rw [hb] at hb'; cases hb'
    refine ⟨(hw.base a b hb).setShape hs, rfl, ho.imp id fun hn => .inr ⟨sh, rfl, hk, ?_⟩⟩
    rw [hk]; exact hn
  · subst h
    exact ⟨by rw [base_upd, if_pos rfl, hb]; rfl, hs.mono g.longer⟩

theorem customFacet_run {k : String} {v : YNode} (hw : W E P s) (hx : K.X s) :
    Run E K False P (only T) (customFacet E a loc k v) s (fun _ s' => s'.bases = s.bases) := by
  unfold customFacet
  refine Run.bind (Q := fun _ s' => s' = s) (Run.lift hw hx noDiv_rootNode fun _ _ => rfl) fun n s1 hw1 hx1 _ e => ?_
  subst e
  refine Run.bind (Run.getBase hw1 hx1) fun b s2 hw2 hx2 _ ⟨e, _⟩ => ?_
  subst e
  cases b.facets with
  | none => exact Run.panic
  | some i => exact Run.setFacet hw2 hx2

/-- One facet: the shape object is replaced by one of the same kind. -/
theorem unmarshalFacet_run {b : Base} {sh : Shape} {k : String} {v : YNode} (hv : Sub E K T c loc v) (hw : W E P s) (hx : K.X s)
    (hb : s.base a = some { b with shape := some sh }) (ho : Open P a b) (hk : Kind sh = Kind (emptyShape b.type)) :
    Run E K False P ((only T).addB a) (unmarshalFacet E c a loc sh k v) s
      (fun sh' s' => s'.base a = some { b with shape := some sh' } ∧ Kind sh' = Kind sh) := by
  unfold unmarshalFacet
  have hsh : ShapeIn s sh := (hw.base a _ hb).shape sh rfl
  cases hm : shapeFacet E c loc sh k v with
  | some m =>
    simp only
    refine Run.bind' (shapeFacet_run hv hsh hw hx hm) only_addB (Perm.Le.refl _ _) fun sh' s1 hw1 hx1 g1 ⟨hs1, hk1⟩ => ?_
    have hb1 := g1.same hb id
    refine Run.bind (Run.setShape hw1 hx1 addB_self hb1 hs1 ho (hk1.trans hk)) fun _ s2 hw2 hx2 _ ⟨h2, _⟩ => ?_
    exact Run.ret hw2 hx2 ⟨h2, hk1⟩
  | none =>
    simp only
    refine Run.bind' (customFacet_run hw hx) only_addB (Perm.Le.refl _ _) fun _ s1 hw1 hx1 g1 he => ?_
    exact Run.ret hw1 hx1 ⟨g1.same hb id, rfl⟩

theorem unmarshalFacets_run {b : Base} : ∀ (l : List YNode) {sh : Shape} {s : St}, (∀ u ∈ l, Sub E K T c loc u) → W E P s → K.X s →
    s.base a = some { b with shape := some sh } → Open P a b → Kind sh = Kind (emptyShape b.type) →
    Run E K False P ((only T).addB a) (unmarshalFacets E c a loc l sh) s
      (fun _ s' => ∃ sh', s'.base a = some { b with shape := some sh' } ∧ Kind sh' = Kind sh ∧ (l = [] → sh' = sh))
  | [], sh, s, _, hw, hx, hb, _, _ => Run.ret hw hx ⟨sh, hb, rfl, fun _ => rfl⟩
  | [_], sh, s, _, hw, hx, hb, _, _ => Run.ret hw hx ⟨sh, hb, rfl, fun _ => rfl⟩
  | k :: v :: rest, sh, s, hl, hw, hx, hb, ho, hk => by
    unfold unmarshalFacets
    refine Run.bind (unmarshalFacet_run (hl v (by simp)) hw hx hb ho hk) fun sh1 s1 hw1 hx1 _ ⟨hb1, hk1⟩ => ?_
    refine (unmarshalFacets_run rest (fun u hu => hl u (by simp [hu])) hw1 hx1 hb1 ho (hk1.trans hk)).post fun _ s2 _ _ ⟨sh2, h2, hk2, _⟩ => ?_
    exact ⟨sh2, h2, hk2.trans hk1, fun h => by cases h⟩

/-- The shape that `makeConcrete` leaves. -/
structure MadeShape (t : String) (facets : Option (List YNode)) (sh : Shape) : Prop where
  kind : Kind sh = Kind (emptyShape t)
  plain : facets = none → sh = emptyShape t
  unknown : Kind (emptyShape t) = "unknown" → sh = .unknown facets
  union : Kind (emptyShape t) = "union" → sh = .union none none

theorem kind_unknown {sh : Shape} (h : Kind sh = "unknown") : ∃ f, sh = .unknown f := by
  cases sh <;> first | exact ⟨_, rfl⟩ | (simp [Kind] at h)

theorem kind_union {sh : Shape} (h : Kind sh = "union") : ∃ l e, sh = .union l e := by
  cases sh <;> first | exact ⟨_, _, rfl⟩ | (simp [Kind] at h)

theorem kind_array {sh : Shape} (h : Kind sh = "array") : ∃ f, sh = .array f := by
  cases sh <;> first | exact ⟨_, rfl⟩ | (simp [Kind] at h)

/-- The shape objects that are made first. -/
theorem emptyShape_cases (t : String) : emptyShape t = .any ∨ emptyShape t = .nil ∨ emptyShape t = .object {} ∨ emptyShape t = .array {} ∨ emptyShape t = .string {} ∨
    emptyShape t = .integer {} ∨ emptyShape t = .number {} ∨ emptyShape t = .datetime none ∨ emptyShape t = .datetimeOnly ∨ emptyShape t = .dateOnly ∨
    emptyShape t = .timeOnly ∨ emptyShape t = .file {} ∨ emptyShape t = .boolean none ∨ emptyShape t = .union none none ∨ emptyShape t = .json "" none ∨
    emptyShape t = .unknown none := by
  unfold emptyShape
  by_cases h0 : t = "any"
  · rw [if_pos h0]; simp
  rw [if_neg h0]
  by_cases h1 : t = "nil"
  · rw [if_pos h1]; simp
  rw [if_neg h1]
  by_cases h2 : t = "object"
  · rw [if_pos h2]; simp
  rw [if_neg h2]
  by_cases h3 : t = "array"
  · rw [if_pos h3]; simp
  rw [if_neg h3]
  by_cases h4 : t = "string"
  · rw [if_pos h4]; simp
  rw [if_neg h4]
  by_cases h5 : t = "integer"
  · rw [if_pos h5]; simp
  rw [if_neg h5]
  by_cases h6 : t = "number"
  · rw [if_pos h6]; simp
  rw [if_neg h6]
  by_cases h7 : t = "datetime"
  · rw [if_pos h7]; simp
  rw [if_neg h7]
  by_cases h8 : t = "datetime-only"
  · rw [if_pos h8]; simp
  rw [if_neg h8]
  by_cases h9 : t = "date-only"
  · rw [if_pos h9]; simp
  rw [if_neg h9]
  by_cases h10 : t = "time-only"
  · rw [if_pos h10]; simp
  rw [if_neg h10]
  by_cases h11 : t = "file"
  · rw [if_pos h11]; simp
  rw [if_neg h11]
  by_cases h12 : t = "boolean"
  · rw [if_pos h12]; simp
  rw [if_neg h12]
  by_cases h13 : t = "union"
  · rw [if_pos h13]; simp
  rw [if_neg h13]
  by_cases h14 : t = "json"
  · rw [if_pos h14]; simp
  rw [if_neg h14]
  simp

theorem emptyShape_in (t : String) : ShapeIn s (emptyShape t) := by
  rcases emptyShape_cases t with h | h | h | h | h | h | h | h | h | h | h | h | h | h | h | h <;> rw [h] <;>
    first | trivial | exact ifSome_none | exact ⟨ifSome_none, ifSome_none⟩

theorem unmarshalYAMLNodes_run {b : Base} {t : String} {facets : Option (List YNode)} (hl : ∀ l, facets = some l → ∀ u ∈ l, Sub E K T c loc u) (hw : W E P s) (hx : K.X s)
    (hb : s.base a = some { b with type := t, shape := some (emptyShape t) }) (ho : P.b a ∨ Kind (emptyShape t) ≠ "unknown") :
    Run E K False P ((only T).addB a) (unmarshalYAMLNodes E c a loc (emptyShape t) facets) s
      (fun _ s' => ∃ sh, s'.base a = some { b with type := t, shape := some sh } ∧ MadeShape t facets sh) := by
  have hloop : ∀ sh : Shape, sh = emptyShape t → Kind sh ≠ "unknown" → Kind sh ≠ "union" →
      Run E K False P ((only T).addB a)
        (if (facets.getD []).length % 2 ≠ 0 then M.err "odd number of nodes" else unmarshalFacets E c a loc (facets.getD []) sh) s
        (fun _ s' => ∃ sh, s'.base a = some { b with type := t, shape := some sh } ∧ MadeShape t facets sh) := by
    intro sh hsh hnu hnn
    split
    · exact Run.err hw hx
    · refine (unmarshalFacets_run (b := { b with type := t }) (facets.getD []) ?_ hw hx (by rw [hsh]; exact hb) ho (by rw [hsh])).post
        fun _ s' _ _ ⟨sh', h1, h2, h3⟩ => ⟨sh', h1, ?_⟩
      · intro u hu
        cases facets with
        | none => simp at hu
        | some l => exact hl l rfl u hu
      · rw [hsh] at h2 h3 hnu hnn
        exact ⟨h2, fun hf => h3 (by rw [hf]; rfl), fun h => absurd h hnu, fun h => absurd h hnn⟩
  have hsame : Kind (emptyShape t) ≠ "unknown" → (Kind (emptyShape t) = "union" → emptyShape t = .union none none) →
      Run E K False P ((only T).addB a) (M.ret ()) s (fun _ s' => ∃ sh, s'.base a = some { b with type := t, shape := some sh } ∧ MadeShape t facets sh) :=
    fun hn hu => Run.ret hw hx ⟨_, hb, rfl, fun _ => rfl, fun h => absurd h hn, hu⟩
  rcases emptyShape_cases t with h | h | h | h | h | h | h | h | h | h | h | h | h | h | h | h
  case inr.inr.inr.inr.inr.inr.inr.inr.inr.inr.inr.inr.inr.inl =>
    have := hsame (by rw [h]; simp [Kind]) fun _ => h
    rw [h]; exact this
  case inr.inr.inr.inr.inr.inr.inr.inr.inr.inr.inr.inr.inr.inr.inl =>
    have := hsame (by rw [h]; simp [Kind]) (by rw [h]; simp [Kind])
    rw [h]; exact this
  case inr.inr.inr.inr.inr.inr.inr.inr.inr.inr.inr.inr.inr.inr.inr =>
    rw [h]
    show Run E K False P ((only T).addB a) (setShape a (.unknown facets)) s _
    refine (Run.setShape hw hx addB_self hb (sh := .unknown facets) trivial ho (by show _ = Kind (emptyShape t); rw [h]; rfl)).post fun _ s' _ _ ⟨h1, _⟩ =>
      ⟨.unknown facets, h1, by rw [h]; rfl, fun hf => by rw [h, hf], fun _ => rfl, fun hu => by rw [h] at hu; simp [Kind] at hu⟩
  all_goals
    have := hloop (emptyShape t) rfl (by rw [h]; simp [Kind]) (by rw [h]; simp [Kind])
    rw [h] at this ⊢
    exact this

theorem makeConcrete_run {b : Base} {t : String} {facets : Option (List YNode)} (hl : ∀ l, facets = some l → ∀ u ∈ l, Sub E K T c b.location u) (hw : W E P s) (hx : K.X s)
    (hb : s.base a = some b) (ho : P.b a ∨ Kind (emptyShape t) ≠ "unknown") :
    Run E K False P ((only T).addB a) (makeConcrete E c a t facets) s
      (fun _ s' => ∃ sh, s'.base a = some { b with type := t, shape := some sh } ∧ MadeShape t facets sh) := by
  unfold makeConcrete
  refine Run.bind (Run.getBase hw hx) fun b0 s0 hw0 hx0 _ ⟨e, h0⟩ => ?_
  subst e
  rw [hb] at h0; cases h0
  refine Run.bind (Run.updBase (P := P) (π := (only T).addB a) hw0 hx0 addB_self ?_) fun _ s1 hw1 hx1 _ he => ?_
  · intro b' hb'
    rw [hb] at hb'; cases hb'
    have h0 := hw.base a b hb
    exact ⟨⟨ifSome_some (emptyShape_in t), h0.facets, h0.facetDefs, h0.alias, h0.inherits, h0.link⟩, rfl, ho.imp id fun hn => .inr ⟨_, rfl, rfl, hn⟩⟩
  · refine unmarshalYAMLNodes_run (b := b) hl hw1 hx1 ?_ ho
    rw [he, base_upd, if_pos rfl, hb]; rfl

/-! ## Examples and annotations -/

theorem unmarshalExt_run {k v : YNode} (hw : W E P s) (hx : K.X s) :
    Run E K False P π (unmarshalCustomDomainExtension E loc k v) s (fun _ s' => s'.bases = s.bases) := by
  unfold unmarshalCustomDomainExtension
  refine Run.bind (Q := fun _ s' => s' = s) (Run.lift hw hx noDiv_annotationName fun _ _ => rfl) fun n s1 hw1 hx1 _ e => ?_
  subst e
  refine Run.bind (Q := fun _ s' => s' = s1) (Run.lift hw1 hx1 noDiv_rootNode fun _ _ => rfl) fun d s2 hw2 hx2 _ e => ?_
  subst e
  exact Run.other hw2 hx2 rfl rfl rfl rfl rfl rfl rfl rfl rfl rfl rfl rfl

theorem exampleDecode_run {k v : YNode} {ex : Example} (hw : W E P s) (hx : K.X s) :
    Run E K False P π (exampleDecode E loc k v ex) s (fun _ s' => s'.bases = s.bases) := by
  unfold exampleDecode
  split
  · refine Run.bind (Q := fun _ s' => s' = s) (Run.lift hw hx noDiv_orErr fun _ _ => rfl) fun n s1 hw1 hx1 _ e => ?_
    subst e; exact Run.ret hw1 hx1 rfl
  split
  · refine Run.bind (Q := fun _ s' => s' = s) (Run.lift hw hx noDiv_orErr fun _ _ => rfl) fun n s1 hw1 hx1 _ e => ?_
    subst e; exact Run.ret hw1 hx1 rfl
  split
  · refine Run.bind (Q := fun _ s' => s' = s) (Run.lift hw hx noDiv_orErr fun _ _ => rfl) fun n s1 hw1 hx1 _ e => ?_
    subst e; exact Run.ret hw1 hx1 rfl
  split
  · exact Run.bind (unmarshalExt_run hw hx) fun n s1 hw1 hx1 _ e => Run.ret hw1 hx1 e
  · exact Run.ret hw hx rfl

theorem exampleEntries_run : ∀ (l : List YNode) {ex : Example} {s : St}, W E P s → K.X s →
    Run E K False P π (exampleEntries E loc l ex) s (fun _ s' => s'.bases = s.bases)
  | [], ex, s, hw, hx => Run.ret hw hx rfl
  | [_], ex, s, hw, hx => Run.panic
  | k :: v :: rest, ex, s, hw, hx => by
    unfold exampleEntries
    exact Run.bind (exampleDecode_run hw hx) fun ex' s1 hw1 hx1 _ e => (exampleEntries_run rest hw1 hx1).post fun _ s2 _ _ h => h.trans e

theorem makeExample_run {v : YNode} (hw : W E P s) (hx : K.X s) :
    Run E K False P π (makeExample E v loc) s (fun _ s' => s'.bases = s.bases) := by
  have hlast : Run E K False P π (M.bind (M.lift (makeRootNode E v loc)) fun d => M.ret ({ data := d } : Example)) s (fun _ s' => s'.bases = s.bases) := by
    refine Run.bind (Q := fun _ s' => s' = s) (Run.lift hw hx noDiv_rootNode fun _ _ => rfl) fun n s1 hw1 hx1 _ e => ?_
    subst e; exact Run.ret hw1 hx1 rfl
  unfold makeExample
  split
  · refine Run.bind (Q := fun _ s' => s' = s) (Run.lift hw hx (noDiv_findValueKey _) fun _ _ => rfl) fun vk s1 hw1 hx1 _ e => ?_
    subst e
    cases vk with
    | none => exact hlast
    | some valueKey =>
      simp only
      refine Run.bind (exampleEntries_run _ hw1 hx1) fun ex s2 hw2 hx2 _ e2 => ?_
      refine Run.bind (Q := fun _ s' => s' = s2) (Run.lift hw2 hx2 noDiv_rootNode fun _ _ => rfl) fun n s3 hw3 hx3 _ e => ?_
      subst e; exact Run.ret hw3 hx3 e2
  · exact hlast

theorem namedExamples_run : ∀ (l : List YNode) {m : OMap Example} {s : St}, W E P s → K.X s →
    Run E K False P π (namedExamples E loc l m) s (fun _ s' => s'.bases = s.bases)
  | [], m, s, hw, hx => Run.ret hw hx rfl
  | [_], m, s, hw, hx => Run.panic
  | k :: v :: rest, m, s, hw, hx => by
    unfold namedExamples
    exact Run.bind (makeExample_run hw hx) fun ex' s1 hw1 hx1 _ e => (namedExamples_run rest hw1 hx1).post fun _ s2 _ _ h => h.trans e

theorem decodeFragment_run {α : Type} {r : Prop} {text : String} {f : YNode → M St α} {Q : α → St → Prop} (hw : W E P s) (hx : K.X s)
    (hf : ∀ d, E.yamlParse text = some d → Run E K r P π (f (docRoot d)) s Q) : Run E K r P π (decodeFragment E text f) s Q := by
  unfold decodeFragment
  cases hd : E.yamlParse text with
  | none => exact Run.err hw hx
  | some d =>
    simp only
    split
    · exact Run.panic
    split
    · exact Run.err hw hx
    · exact hf d hd

theorem parseNamedExample_run {path : String} (hT : π.f path) (hw : W E P s) (hx : K.X s) :
    Run E K False P π (parseNamedExample E path) s (fun _ s' => s'.bases = s.bases) := by
  cases hg : getFragment s path with
  | some fr =>
    cases fr with
    | namedExample i => exact Run.of_eq (m' := M.ret i) (by simp [parseNamedExample, hg]) (Run.ret hw hx rfl)
    | library i => exact Run.of_eq (m' := M.panic "interface conversion") (by simp [parseNamedExample, hg, M.panic]) Run.panic
    | dataType i => exact Run.of_eq (m' := M.panic "interface conversion") (by simp [parseNamedExample, hg, M.panic]) Run.panic
  | none =>
    cases hf : E.file path with
    | none => exact Run.of_eq (m' := M.err "open fragment file") (by simp [parseNamedExample, hg, hf, M.err]) (Run.err hw hx)
    | some text =>
      refine Run.of_eq (m' := M.bind (M.lift (checkFragmentKind path text .namedExample)) fun _ => decodeNamedExample E text path) (by simp [parseNamedExample, hg, hf]) ?_
      refine Run.bind (Q := fun _ s' => s' = s) (Run.lift hw hx noDiv_checkKind fun _ _ => rfl) fun _ s1 hw1 hx1 _ e => ?_
      subst e
      unfold decodeNamedExample
      refine Run.bind (Q := fun _ s' => s'.bases = s1.bases) (decodeFragment_run hw1 hx1 fun d _ => namedExamples_run _ hw1 hx1) fun m s2 hw2 hx2 _ e2 => ?_
      refine Run.bind (Run.newNE hw2 hx2) fun i s3 hw3 hx3 _ ⟨hi, e3⟩ => ?_
      refine Run.bind (Run.putFragment hw3 hx3 hT (f := .namedExample i) hi) fun _ s4 hw4 hx4 _ e4 => ?_
      exact Run.ret hw4 hx4 (e4.1.trans (e3.trans e2))

/-! ## Types -/

/-- The base is there, with the location. -/
def At (s : St) (a : Addr) (loc : String) : Prop := ∃ b, s.base a = some b ∧ b.location = loc

theorem At.isBase (h : At s a loc) : IsBase s a := by
  obtain ⟨b, hb, _⟩ := h
  exact (List.getElem?_eq_some_iff.1 hb).1

theorem At.of_bases {s' : St} (h : At s a loc) (e : s'.bases = s.bases) : At s' a loc := by
  obtain ⟨b, hb, hl⟩ := h
  exact ⟨b, by simpa only [St.base, e] using hb, hl⟩

theorem At.same {s' : St} (h : At s a loc) (g : G False (only T) s s') : At s' a loc := by
  obtain ⟨b, hb, hl⟩ := h
  exact ⟨b, g.same hb id, hl⟩

/-- Assigning fields of a base under construction. -/
theorem Run.assign {f : Base → Base} {r : Prop} (hw : W E P s) (hx : K.X s) (hπ : π.b a) (hP : P.b a) (ha : At s a loc)
    (hf : ∀ b, s.base a = some b → BaseIn s b → BaseIn s (f b) ∧ (f b).id = b.id ∧ (f b).location = b.location) :
    Run E K r P π (Heap.updBase a f) s (fun _ s' => At s' a loc ∧ (s'.base a = (s.base a).map f)) := by
  refine (Run.updBase hw hx hπ (fun b hb => ?_) fun b hb => (hf b hb (hw.base a b hb)).2.2).post fun _ s' _ _ h => ?_
  · obtain ⟨h1, h2, h3⟩ := hf b hb (hw.base a b hb)
    exact ⟨h1, h2, .inl hP⟩
  · obtain ⟨b, hb, hl⟩ := ha
    obtain ⟨_, _, h3⟩ := hf b hb (hw.base a b hb)
    subst h
    exact ⟨⟨f b, by rw [base_upd, if_pos rfl, hb]; rfl, h3.trans hl⟩, by rw [base_upd, if_pos rfl]⟩

theorem decodeExamples_run {v : YNode} (hP : P.b a) (hi : v.tag = "!include" → T (E.joinDir loc v.value)) (hw : W E P s) (hx : K.X s) (ha : At s a loc) :
    Run E K False P ((only T).addB a) (decodeExamples E a loc v) s (fun _ s' => At s' a loc) := by
  unfold decodeExamples
  refine Run.bind (Run.getBase hw hx) fun b s1 hw1 hx1 _ ⟨e, _⟩ => ?_
  subst e
  split
  · exact Run.err hw1 hx1
  split
  · rename_i hinc
    refine Run.bind (parseNamedExample_run (π := (only T).addB a) (hi hinc.2) hw1 hx1) fun i s2 hw2 hx2 _ e2 => ?_
    refine Run.of_eq (m' := Heap.updBase a fun b => { b with examples := some { link := s2.nes[i]? } }) rfl ?_
    refine (Run.assign hw2 hx2 addB_self hP (ha.of_bases e2) ?_).post fun _ _ _ _ h => h.1
    exact fun b _ h => ⟨⟨h.1, h.2, h.3, h.4, h.5, h.6⟩, rfl, rfl⟩
  split
  · exact Run.err hw1 hx1
  · refine Run.bind (namedExamples_run _ hw1 hx1) fun m s2 hw2 hx2 _ e2 => ?_
    refine (Run.assign hw2 hx2 addB_self hP (ha.of_bases e2) ?_).post fun _ _ _ _ h => h.1
    exact fun b _ h => ⟨⟨h.1, h.2, h.3, h.4, h.5, h.6⟩, rfl, rfl⟩

theorem decodeFacetDefs_run {i : Nat} : ∀ (l : List YNode) {s : St}, (∀ u ∈ l, Sub E K T c loc u) → W E P s → K.X s →
    Run E K False P (only T) (decodeFacetDefs E c loc i l) s (fun _ _ => True)
  | [], s, _, hw, hx => Run.ret hw hx trivial
  | [_], s, _, hw, hx => Run.panic
  | k :: v :: rest, s, hl, hw, hx => by
    unfold decodeFacetDefs
    refine Run.bind ((hl v (by simp)).shape P s k.value hw hx) fun a' s1 hw1 hx1 _ ha => ?_
    refine Run.bind (Run.getBase hw1 hx1) fun b s2 hw2 hx2 _ ⟨e, _⟩ => ?_
    subst e
    refine Run.bind (Run.setProp hw2 hx2 ?_) fun _ s3 hw3 hx3 _ _ => decodeFacetDefs_run rest (fun u hu => hl u (by simp [hu])) hw3 hx3
    unfold nameProperty
    split <;> exact ha.2

theorem decodeValueNode_run {k v : YNode} (hP : P.b a) (hv : Sub E K T c loc v) (hw : W E P s) (hx : K.X s) (ha : At s a loc) :
    Run E K False P ((only T).addB a) (decodeValueNode E c a loc k v) s
      (fun r s' => At s' a loc ∧ (∀ t, r.1 = some t → t = v) ∧ ∀ u ∈ r.2, u = k ∨ u = v) := by
  have hnone : ∀ {s' : St}, At s' a loc → At s' a loc ∧ (∀ t, (none : Option YNode) = some t → t = v) ∧ ∀ u ∈ ([] : List YNode), u = k ∨ u = v :=
    fun h => ⟨h, (fun _ h => by cases h), (fun _ h => by cases h)⟩
  have hset : ∀ {s' : St} {f : Base → Base}, W E P s' → K.X s' → At s' a loc →
      (∀ b, s'.base a = some b → BaseIn s' b → BaseIn s' (f b) ∧ (f b).id = b.id ∧ (f b).location = b.location) →
      Run E K False P ((only T).addB a) (M.bind (Heap.updBase a f) fun _ => M.ret ((none, []) : Option YNode × List YNode)) s'
        (fun r s' => At s' a loc ∧ (∀ t, r.1 = some t → t = v) ∧ ∀ u ∈ r.2, u = k ∨ u = v) := by
    intro s' f hw' hx' ha' hf
    exact Run.bind (Run.assign hw' hx' addB_self hP ha' hf) fun _ s2 hw2 hx2 _ h => Run.ret hw2 hx2 (hnone h.1)
  unfold decodeValueNode
  extract_lets none_
  by_cases hc : k.value = "type"
  · rw [if_pos hc]
    exact Run.ret hw hx ⟨ha, fun t h => by cases h; rfl, fun _ h => by cases h⟩
  rw [if_neg hc]
  by_cases hc : k.value = "displayName"
  · rw [if_pos hc]
    refine Run.bind (Q := fun _ s' => s' = s) (Run.lift hw hx noDiv_orErr fun _ _ => rfl) fun _ s1 hw1 hx1 _ e => ?_
    subst e
    exact hset hw1 hx1 ha fun b _ h => ⟨⟨h.1, h.2, h.3, h.4, h.5, h.6⟩, rfl, rfl⟩
  rw [if_neg hc]
  by_cases hc : k.value = "description"
  · rw [if_pos hc]
    refine Run.bind (Q := fun _ s' => s' = s) (Run.lift hw hx noDiv_orErr fun _ _ => rfl) fun _ s1 hw1 hx1 _ e => ?_
    subst e
    exact hset hw1 hx1 ha fun b _ h => ⟨⟨h.1, h.2, h.3, h.4, h.5, h.6⟩, rfl, rfl⟩
  rw [if_neg hc]
  by_cases hc : k.value = "required"
  · rw [if_pos hc]
    refine Run.bind (Q := fun _ s' => s' = s) (Run.lift hw hx noDiv_orErr fun _ _ => rfl) fun _ s1 hw1 hx1 _ e => ?_
    subst e
    exact hset hw1 hx1 ha fun b _ h => ⟨⟨h.1, h.2, h.3, h.4, h.5, h.6⟩, rfl, rfl⟩
  rw [if_neg hc]
  by_cases hc : k.value = "facets"
  · rw [if_pos hc]
    refine Run.bind (Run.newProps hw hx (by simp)) fun i s1 hw1 hx1 _ ⟨hi, e1, _⟩ => ?_
    refine Run.bind (Run.assign hw1 hx1 addB_self hP (ha.of_bases e1) fun b _ h => ⟨⟨h.1, h.2, ifSome_some hi, h.4, h.5, h.6⟩, rfl, rfl⟩) fun _ s2 hw2 hx2 _ h2 => ?_
    refine Run.bind' (decodeFacetDefs_run v.content (fun u hu => hv.content hu) hw2 hx2) only_addB (Perm.Le.refl _ _) fun _ s3 hw3 hx3 g3 _ => ?_
    exact Run.ret hw3 hx3 (hnone (h2.1.same g3))
  rw [if_neg hc]
  by_cases hc : k.value = "example"
  · rw [if_pos hc]
    refine Run.bind (Run.getBase hw hx) fun b s1 hw1 hx1 _ ⟨e, _⟩ => ?_
    subst e
    split
    · exact Run.err hw1 hx1
    · refine Run.bind (makeExample_run hw1 hx1) fun ex s2 hw2 hx2 _ e2 => ?_
      exact hset hw2 hx2 (ha.of_bases e2) fun b _ h => ⟨⟨h.1, h.2, h.3, h.4, h.5, h.6⟩, rfl, rfl⟩
  rw [if_neg hc]
  by_cases hc : k.value = "examples"
  · rw [if_pos hc]
    refine Run.bind (decodeExamples_run hP (fun h => (hv.inner.inc h).2) hw hx ha) fun _ s1 hw1 hx1 _ h1 => Run.ret hw1 hx1 (hnone h1)
  rw [if_neg hc]
  by_cases hc : k.value = "default"
  · rw [if_pos hc]
    refine Run.bind (Q := fun _ s' => s' = s) (Run.lift hw hx noDiv_rootNode fun _ _ => rfl) fun _ s1 hw1 hx1 _ e => ?_
    subst e
    exact hset hw1 hx1 ha fun b _ h => ⟨⟨h.1, h.2, h.3, h.4, h.5, h.6⟩, rfl, rfl⟩
  rw [if_neg hc]
  by_cases hc : k.value = "allowedTargets"
  · rw [if_pos hc]
    exact Run.ret hw hx (hnone ha)
  rw [if_neg hc]
  by_cases hc : isCustomDomainExtensionNode k.value = true
  · rw [if_pos hc]
    refine Run.bind (unmarshalExt_run hw hx) fun nd s1 hw1 hx1 _ e1 => ?_
    exact hset hw1 hx1 (ha.of_bases e1) fun b _ h => ⟨⟨h.1, h.2, h.3, h.4, h.5, h.6⟩, rfl, rfl⟩
  · rw [if_neg hc]
    exact Run.ret hw hx ⟨ha, (fun t h => by cases h), (fun u hu => by simpa using hu)⟩

theorem decodeEntries_run (hP : P.b a) : ∀ (l : List YNode) {t : Option YNode} {fs : List YNode} {s : St}, (∀ u ∈ l, Sub E K T c loc u) →
    (∀ u, t = some u → Sub E K T c loc u) → (∀ u ∈ fs, Sub E K T c loc u) → W E P s → K.X s → At s a loc →
    Run E K False P ((only T).addB a) (decodeEntries E c a loc l t fs) s
      (fun r s' => At s' a loc ∧ (∀ u, r.1 = some u → Sub E K T c loc u) ∧ ∀ u ∈ r.2, Sub E K T c loc u)
  | [], t, fs, s, _, ht, hfs, hw, hx, ha => Run.ret hw hx ⟨ha, ht, hfs⟩
  | [_], t, fs, s, _, _, _, hw, hx, _ => Run.panic
  | k :: v :: rest, t, fs, s, hl, ht, hfs, hw, hx, ha => by
    unfold decodeEntries
    refine Run.bind (decodeValueNode_run hP (hl v (by simp)) hw hx ha) fun r s1 hw1 hx1 _ ⟨h1, h2, h3⟩ => ?_
    refine decodeEntries_run hP rest (fun u hu => hl u (by simp [hu])) ?_ ?_ hw1 hx1 h1
    · intro u hu
      cases hr : r.1 with
      | none => rw [hr] at hu; exact ht u hu
      | some t' =>
        rw [hr] at hu; cases hu
        rw [h2 _ hr]; exact hl v (by simp)
    · intro u hu
      rcases List.mem_append.1 hu with h | h
      · exact hfs u h
      · rcases h3 u h with rfl | rfl <;> exact hl _ (by simp)

theorem decode_run {v : YNode} (hP : P.b a) (hv : Inner E K T c loc v) (hw : W E P s) (hx : K.X s) (ha : At s a loc) :
    Run E K False P ((only T).addB a) (decode E c a loc v) s
      (fun r s' => At s' a loc ∧ (∀ u, r.1 = some u → Inner E K T c loc u) ∧ ∀ l, r.2 = some l → ∀ u ∈ l, Sub E K T c loc u) := by
  unfold decode
  split
  · exact Run.ret hw hx ⟨ha, fun u h => by cases h; exact hv, fun l h => by cases h⟩
  split
  · exact Run.err hw hx
  · refine Run.bind (decodeEntries_run hP v.content hv.content (fun _ h => by cases h) (fun _ h => by cases h) hw hx ha) fun r s1 hw1 hx1 _ ⟨h1, h2, h3⟩ => ?_
    exact Run.ret hw1 hx1 ⟨h1, fun u h => (h2 u h).inner, fun l h => by cases h; exact h3⟩

theorem makeInherits_run {name : String} : ∀ (l : List YNode) {s : St}, (∀ u ∈ l, Sub E K T c loc u) → W E P s → K.X s →
    Run E K False P (only T) (makeInherits c name loc l) s (fun as s' => ∀ x ∈ as, IsBase s' x)
  | [], s, _, hw, hx => Run.ret hw hx (by simp)
  | n :: rest, s, hl, hw, hx => by
    unfold makeInherits
    split
    · exact Run.err hw hx
    split
    · exact Run.err hw hx
    · refine Run.bind ((hl n (by simp)).shape P s name hw hx) fun a' s1 hw1 hx1 _ ha => ?_
      refine Run.bind (makeInherits_run rest (fun u hu => hl u (by simp [hu])) hw1 hx1) fun as s2 hw2 hx2 g2 has => ?_
      refine Run.ret hw2 hx2 fun x hx => ?_
      rcases List.mem_cons.1 hx with rfl | h
      · exact g2.isBase ha.2
      · exact has x h

theorem makeShapeType_run {t : YNode} {facets : Option (List YNode)} {name : String} (hP : P.b a) (ht : Inner E K T c loc t) (hw : W E P s) (hx : K.X s) (ha : At s a loc) :
    Run E K False P ((only T).addB a) (makeShapeType E c t facets name loc a) s
      (fun st s' => At s' a loc ∧ (st = none → Concrete s' a)) := by
  unfold makeShapeType
  cases hk : t.kind with
  | zero => exact Run.err hw hx
  | document => exact Run.err hw hx
  | mapping => exact Run.err hw hx
  | «alias» => exact Run.err hw hx
  | scalar =>
    simp only
    split
    · split
      · refine Run.bind (Q := fun _ s' => s' = s) (Run.lift hw hx noDiv_identify fun _ _ => rfl) fun _ s1 hw1 hx1 _ e => ?_
        subst e
        exact Run.ret hw1 hx1 ⟨ha, fun h => by cases h⟩
      split
      · refine Run.bind (Run.assign hw hx addB_self hP ha fun b _ h => ⟨⟨h.1, h.2, h.3, h.4, h.5, h.6⟩, rfl, rfl⟩) fun _ s1 hw1 hx1 _ ⟨h1, h2⟩ => ?_
        refine Run.bind (Q := fun _ s' => s' = s1) (Run.lift hw1 hx1 noDiv_orErr fun _ _ => rfl) fun js s2 hw2 hx2 _ e => ?_
        subst e
        obtain ⟨b, hb, hl⟩ := ha
        rw [hb] at h2
        refine Run.bind (Run.setShape (sh := .json t.value (some js)) hw2 hx2 addB_self h2 trivial (.inl hP) (by simp [Kind, emptyShape])) fun _ s3 hw3 hx3 _ ⟨h3, _⟩ => ?_
        exact Run.ret hw3 hx3 ⟨⟨_, h3, hl⟩, fun _ => ⟨_, h3, _, rfl, by simp [Kind, emptyShape], by simp [Kind]⟩⟩
      · exact Run.ret hw hx ⟨ha, fun h => by cases h⟩
    split
    · rename_i hinc
      refine Run.bind' ((ht.inc hinc).1 P s hw hx) only_addB (Perm.Le.refl _ _) fun d s1 hw1 hx1 g1 ⟨dd, hd, _⟩ => ?_
      have hlt : d < s1.dts.length := (List.getElem?_eq_some_iff.1 hd).1
      refine Run.bind (Run.assign hw1 hx1 addB_self hP (ha.same g1) fun b _ h => ⟨⟨h.1, h.2, h.3, h.4, h.5, ifSome_some hlt⟩, rfl, rfl⟩) fun _ s2 hw2 hx2 _ ⟨h1, _⟩ => ?_
      exact Run.ret hw2 hx2 ⟨h1, fun h => by cases h⟩
    split
    · exact Run.ret hw hx ⟨ha, fun h => by cases h⟩
    · exact Run.err hw hx
  | sequence =>
    simp only
    refine Run.bind' (makeInherits_run t.content ht.content hw hx) only_addB (Perm.Le.refl _ _) fun l s1 hw1 hx1 g1 hl => ?_
    refine Run.bind (Run.newSlice hw1 hx1 hl) fun i s2 hw2 hx2 _ ⟨hi, _, e2⟩ => ?_
    refine Run.bind (Run.assign hw2 hx2 addB_self hP ((ha.same g1).of_bases e2) fun b _ h => ⟨⟨h.1, h.2, h.3, h.4, ifSome_some hi, h.6⟩, rfl, rfl⟩) fun _ s3 hw3 hx3 _ ⟨h1, _⟩ => ?_
    exact Run.ret hw3 hx3 ⟨h1, fun h => by cases h⟩

theorem finishShape_run {t : String} {facets : Option (List YNode)} (hP : P.b a) (hl : ∀ l, facets = some l → ∀ u ∈ l, Sub E K T c loc u) (hw : W E P s) (hx : K.X s)
    (ha : At s a loc) :
    Run E K False P ((only T).addB a) (finishShape E c a t facets) s (fun a' s' => a' = a ∧ At s' a loc ∧ ∀ b, s'.base a = some b → Settled s' a b) := by
  unfold finishShape
  obtain ⟨b, hb, hloc⟩ := ha
  subst hloc
  refine Run.bind (makeConcrete_run hl hw hx hb (.inl hP)) fun _ s1 hw1 hx1 _ ⟨sh, h1, hm⟩ => ?_
  have hi : IsBase s1 a := (List.getElem?_eq_some_iff.1 h1).1
  by_cases hu : Kind (emptyShape t) = "unknown"
  · obtain ⟨f, hf⟩ := kind_unknown hu
    have hsh := hm.unknown hu
    rw [hf]
    simp only
    refine Run.bind (Run.pushUnresolved hw1 hx1 hi) fun _ s2 hw2 hx2 _ ⟨e2, hin⟩ => ?_
    have h2 : s2.base a = some { b with type := t, shape := some sh } := by simpa only [St.base, e2] using h1
    refine Run.ret hw2 hx2 ⟨rfl, ⟨_, h2, rfl⟩, fun b' hb' => ?_⟩
    rw [h2] at hb'; cases hb'
    exact .inl ⟨_, by rw [hsh], hin⟩
  · have : Run E K False P ((only T).addB a) (M.ret a) s1 (fun a' s' => a' = a ∧ At s' a b.location ∧ ∀ b, s'.base a = some b → Settled s' a b) := by
      refine Run.ret hw1 hx1 ⟨rfl, ⟨_, h1, rfl⟩, fun b' hb' => ?_⟩
      rw [h1] at hb'; cases hb'
      exact .inr ⟨sh, rfl, hm.kind, by rw [hm.kind]; exact hu⟩
    cases he : emptyShape t with
    | unknown f => rw [he] at hu; exact absurd rfl hu
    | _ => exact this

theorem makeNewShapeYAML_run {v : YNode} {name : String} (hv : Inner E K T c loc v) (hw : W E P s) (hx : K.X s) :
    Run E K False P (only T) (makeNewShapeYAML E c v name loc) s (fun a s' => s.bases.length ≤ a ∧ IsBase s' a) := by
  unfold makeNewShapeYAML
  refine Run.bind' (π2 := (only T).addB s.bases.length) (Run.makeBaseShape (π := only T) hw hx) (Perm.Le.refl _ _) (Perm.Le.addB (Nat.le_refl _)) fun a s1 hw1 hx1 _ ⟨e, h1⟩ => ?_
  subst e
  have ha : At s1 s.bases.length loc := ⟨_, h1, rfl⟩
  have hP : (P.addB s.bases.length).b s.bases.length := .inr rfl
  have hfin : ∀ {t : String} {facets : Option (List YNode)} {s2 : St}, (∀ l, facets = some l → ∀ u ∈ l, Sub E K T c loc u) → W E (P.addB s.bases.length) s2 → K.X s2 →
      At s2 s.bases.length loc →
      Run E K False P ((only T).addB s.bases.length) (finishShape E c s.bases.length t facets) s2 (fun a s' => s.bases.length ≤ a ∧ IsBase s' a) := by
    intro t facets s2 hl hw2 hx2 ha2
    refine (finishShape_run hP hl hw2 hx2 ha2).mono (Perm.Le.refl _ _) fun a s' hw' _ ⟨e, h3, h4⟩ => ?_
    subst e
    exact ⟨hw'.dropB h4, Nat.le_refl _, h3.isBase⟩
  refine Run.bind (decode_run hP hv hw1 hx1 ha) fun r s2 hw2 hx2 _ ⟨ha2, ht2, hl2⟩ => ?_
  cases hr : r.1 with
  | none =>
    simp only
    refine Run.bind (Q := fun _ s' => s' = s2) (Run.lift hw2 hx2 noDiv_identify fun _ _ => rfl) fun _ s3 hw3 hx3 _ e => ?_
    subst e
    exact hfin hl2 hw3 hx3 ha2
  | some t =>
    simp only
    refine Run.bind (makeShapeType_run hP (ht2 t hr) hw2 hx2 ha2) fun st s3 hw3 hx3 _ ⟨ha3, hc⟩ => ?_
    cases st with
    | some shapeType => exact hfin hl2 hw3 hx3 ha3
    | none =>
      refine Run.ret (hw3.dropB fun b hb => ?_) hx3 ⟨Nat.le_refl _, ha3.isBase⟩
      obtain ⟨b', hb', ht⟩ := hc rfl
      rw [hb] at hb'; cases hb'
      exact .inr ht

end

end GoRaml.Load
