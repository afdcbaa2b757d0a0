import Verif.Lemmas.HaltBase

/-!
# Parsing ends: decoding a type
-/

namespace GoRaml.Halt

open GoRaml GoRaml.Spec GoRaml.Load

/-! ## What the recursive calls are assumed to do -/

section
variable {E : Env} (Pl : Plan E) (d : Prop) (U k : Nat) (c : Calls)

/-- Making a type from `v`. -/
def ShapeOK (v : YNode) (loc : String) : Prop := ∀ s name, Pl.left s ≤ U → Run Pl d nothing k (c.makeShape v name loc) s (fun _ _ => True)

/-- Loading a data type. -/
def TypeOK (p : String) : Prop := ∀ s, Pl.left s ≤ U → Run Pl d nothing k (c.parseDataType p) s (fun _ _ => True)

/-- Loading a library. -/
def LibOK (p : String) : Prop := ∀ s, Pl.left s ≤ U → Run Pl d nothing k (c.parseLibrary p) s (fun _ _ => True)

/-- Types can be made from all nodes of the tree. -/
def Below (loc : String) (u : YNode) : Prop :=
  ∀ t, Within t u → ShapeOK Pl d U k c t loc ∧ (t.tag = "!include" → TypeOK Pl d U k c (E.joinDir loc t.value))

/-- Types can be made from all nodes of the tree but the root. -/
structure Proper (loc : String) (u : YNode) : Prop where
  content : ∀ t ∈ u.content, Below Pl d U k c loc t
  inc : u.tag = "!include" → TypeOK Pl d U k c (E.joinDir loc u.value)

end

section
variable {E : Env} {Pl : Plan E} {d : Prop} {U k : Nat} {c : Calls} {loc : String} {ex : Addr → Prop} {s : St} {a : Addr}

theorem Below.content {u v : YNode} (h : Below Pl d U k c loc v) (hu : u ∈ v.content) : Below Pl d U k c loc u := fun t ht => h t (.step hu ht)

theorem Below.shape {v : YNode} (h : Below Pl d U k c loc v) : ShapeOK Pl d U k c v loc := (h v (.refl v)).1

theorem Below.proper {v : YNode} (h : Below Pl d U k c loc v) : Proper Pl d U k c loc v := ⟨fun _ ht => h.content ht, (h v (.refl v)).2⟩

/-! ## Facets -/

theorem Run.liftDecoded {α β : Type} {o : Option α} {e : String} {g : α → β} : Run Pl d ex k (M.lift ((orErr e o).bind fun n => .ok (g n))) s (fun _ _ => True) :=
  Run.lift (noDiv_bind noDiv_orErr fun _ => noDiv_ok) fun _ _ => trivial

theorem arrayFacet_run {f : ArrayF} {key : String} {v : YNode} {m : M St ArrayF} (hv : Below Pl d U k c loc v) (hU : Pl.left s ≤ U)
    (hm : arrayFacet E c loc f key v = some m) : Run Pl d nothing k m s (fun _ _ => True) := by
  unfold arrayFacet at hm
  by_cases h1 : key = "minItems"
  · rw [if_pos h1] at hm; cases hm; exact Run.liftDecoded
  rw [if_neg h1] at hm
  by_cases h2 : key = "maxItems"
  · rw [if_pos h2] at hm; cases hm; exact Run.liftDecoded
  rw [if_neg h2] at hm
  by_cases h3 : key = "items"
  · rw [if_pos h3] at hm; cases hm
    exact Run.bind (hv.shape s "items" hU) fun a s' _ _ => Run.ret trivial
  rw [if_neg h3] at hm
  by_cases h4 : key = "uniqueItems"
  · rw [if_pos h4] at hm; cases hm; exact Run.liftDecoded
  rw [if_neg h4] at hm; cases hm

theorem makeDeclared_run {n : String} {v : YNode} (hv : Below Pl d U k c loc v) (hU : Pl.left s ≤ U) :
    Run Pl d nothing k (makeDeclared E c loc n v) s (fun _ _ => True) := by
  unfold makeDeclared
  refine Run.bind (hv.shape s n hU) fun a s1 _ _ => ?_
  exact Run.bindGet fun b _ => Run.lift noDiv_declare fun _ _ => trivial

theorem quiet_newProps {m : OMap Property} : Quiet (Heap.newProps m) := Quiet.mk (fun _ => rfl) fun _ => rfl
theorem quiet_newPatProps {m : OMap PatternProperty} : Quiet (Heap.newPatProps m) := Quiet.mk (fun _ => rfl) fun _ => rfl
theorem quiet_setProp {i : Nat} {n : String} {p : Property} : Quiet (Heap.setProp i n p) := Quiet.mk (fun _ => rfl) fun _ => rfl
theorem quiet_setPatProp {i : Nat} {n : String} {p : PatternProperty} : Quiet (Heap.setPatProp i n p) := Quiet.mk (fun _ => rfl) fun _ => rfl
theorem quiet_setFacet {i : Nat} {n : String} {p : GoVal} : Quiet (Heap.setFacet i n p) := Quiet.mk (fun _ => rfl) fun _ => rfl
theorem quiet_newSlice {l : List Addr} : Quiet (Heap.newSlice l) := Quiet.mk (fun _ => rfl) fun _ => rfl
theorem quiet_newNE {l : OMap Example} : Quiet (Heap.newNE l) := Quiet.mk (fun _ => rfl) fun _ => rfl
theorem quiet_newLib {l : Lib} : Quiet (Heap.newLib l) := Quiet.mk (fun _ => rfl) fun _ => rfl
theorem quiet_newDT {l : DT} : Quiet (Heap.newDT l) := Quiet.mk (fun _ => rfl) fun _ => rfl
theorem quiet_putType {n l : String} : Quiet (Heap.putType n l a) := Quiet.mk (fun _ => rfl) fun _ => rfl
theorem quiet_putAnnotationType {n l : String} : Quiet (Heap.putAnnotationType n l a) := Quiet.mk (fun _ => rfl) fun _ => rfl
theorem quiet_linkLib {i : Nat} {n l : String} {o : Option Nat} : Quiet (Heap.linkLib i n l o) := Quiet.mk (fun _ => rfl) fun _ => rfl
theorem quiet_linkDT {i : Nat} {n l : String} {o : Option Nat} : Quiet (Heap.linkDT i n l o) := Quiet.mk (fun _ => rfl) fun _ => rfl
theorem quiet_pushUnresolved : Quiet (Heap.pushUnresolved a) := Quiet.mk (fun _ => rfl) fun _ => rfl

theorem unmarshalProperty_run {n : String} {v : YNode} {f : ObjectF} (hv : Below Pl d U k c loc v) (hU : Pl.left s ≤ U) :
    Run Pl d nothing k (unmarshalProperty E c loc n v f) s (fun _ _ => True) := by
  unfold unmarshalProperty
  split
  · have h0 : Quiet (ensurePatProps f.patternProperties) := by
      unfold ensurePatProps
      cases f.patternProperties with
      | some i => exact Quiet.ret
      | none => exact quiet_newPatProps
    refine Run.bind h0.run fun i s1 g1 _ => ?_
    refine Run.bind (makeDeclared_run hv (g1.left.trans hU)) fun d s2 g2 _ => ?_
    cases d with
    | property p => exact Run.ret trivial
    | pattern k p => exact Run.bind quiet_setPatProp.run fun _ s3 _ _ => Run.ret trivial
  · have h0 : Quiet (ensureProps f.properties) := by
      unfold ensureProps
      cases f.properties with
      | some i => exact Quiet.ret
      | none => exact quiet_newProps
    refine Run.bind h0.run fun i s1 g1 _ => ?_
    refine Run.bind (makeDeclared_run hv (g1.left.trans hU)) fun d s2 g2 _ => ?_
    cases d with
    | pattern k p => exact Run.ret trivial
    | property p => exact Run.bind quiet_setProp.run fun _ s3 _ _ => Run.ret trivial

theorem unmarshalProperties_run : ∀ (l : List YNode) {f : ObjectF} {s : St}, (∀ u ∈ l, Below Pl d U k c loc u) → Pl.left s ≤ U →
    Run Pl d nothing k (unmarshalProperties E c loc l f) s (fun _ _ => True)
  | [], f, s, _, _ => Run.ret trivial
  | [_], f, s, _, _ => Run.ret trivial
  | k :: v :: rest, f, s, hl, hU => by
    unfold unmarshalProperties
    refine Run.bind (unmarshalProperty_run (hl v (by simp)) hU) fun f' s' g _ => ?_
    exact unmarshalProperties_run rest (fun u hu => hl u (by simp [hu])) (g.left.trans hU)

theorem objectFacet_run {f : ObjectF} {key : String} {v : YNode} {m : M St ObjectF} (hv : Below Pl d U k c loc v) (hU : Pl.left s ≤ U)
    (hm : objectFacet E c loc f key v = some m) : Run Pl d nothing k m s (fun _ _ => True) := by
  unfold objectFacet at hm
  by_cases h1 : key = "additionalProperties"
  · rw [if_pos h1] at hm; cases hm; exact Run.liftDecoded
  rw [if_neg h1] at hm
  by_cases h1 : key = "discriminator"
  · rw [if_pos h1] at hm; cases hm; exact Run.liftDecoded
  rw [if_neg h1] at hm
  by_cases h1 : key = "discriminatorValue"
  · rw [if_pos h1] at hm; cases hm; exact Run.liftDecoded
  rw [if_neg h1] at hm
  by_cases h1 : key = "minProperties"
  · rw [if_pos h1] at hm; cases hm; exact Run.liftDecoded
  rw [if_neg h1] at hm
  by_cases h1 : key = "maxProperties"
  · rw [if_pos h1] at hm; cases hm; exact Run.liftDecoded
  rw [if_neg h1] at hm
  by_cases h1 : key = "properties"
  · rw [if_pos h1] at hm; cases hm
    split
    · exact Run.err
    · exact unmarshalProperties_run v.content (fun u hu => hv.content hu) hU
  rw [if_neg h1] at hm; cases hm

theorem liftShape_run {α : Type} {o : Out α} {g : α → Shape} {kd : String} (ho : o ≠ .diverge) (hg : ∀ x, Kind (g x) = kd) :
    Run Pl d ex k (M.lift (o.bind fun f => .ok (g f))) s (fun sh' _ => Kind sh' = kd) := by
  refine Run.lift (noDiv_bind ho fun _ => noDiv_ok) fun x h => ?_
  cases o with
  | ok y => cases h; exact hg y
  | err e => cases h
  | panic e => cases h
  | diverge => cases h

theorem shapeFacet_run {sh : Shape} {key : String} {v : YNode} {m : M St Shape} (hv : Below Pl d U k c loc v) (hU : Pl.left s ≤ U)
    (hm : shapeFacet E c loc sh key v = some m) : Run Pl d nothing k m s (fun sh' _ => Kind sh' = Kind sh) := by
  cases sh with
  | integer f =>
    obtain ⟨o, ho, rfl⟩ := Option.map_eq_some_iff.1 hm
    exact liftShape_run (noDiv_integerFacet ho) fun _ => rfl
  | number f =>
    obtain ⟨o, ho, rfl⟩ := Option.map_eq_some_iff.1 hm
    exact liftShape_run (noDiv_numberFacet ho) fun _ => rfl
  | string f =>
    obtain ⟨o, ho, rfl⟩ := Option.map_eq_some_iff.1 hm
    exact liftShape_run (noDiv_stringFacet ho) fun _ => rfl
  | file f =>
    obtain ⟨o, ho, rfl⟩ := Option.map_eq_some_iff.1 hm
    exact liftShape_run (noDiv_fileFacet ho) fun _ => rfl
  | boolean e =>
    unfold shapeFacet at hm
    simp only at hm
    split at hm
    · cases hm
      exact liftShape_run noDiv_enum fun _ => rfl
    · cases hm
  | datetime e =>
    unfold shapeFacet at hm
    simp only at hm
    split at hm
    · cases hm
      split
      · exact Run.lift noDiv_err fun _ h => by cases h
      · exact liftShape_run noDiv_orErr fun _ => rfl
    · cases hm
  | array f =>
    obtain ⟨o, ho, rfl⟩ := Option.map_eq_some_iff.1 hm
    exact Run.bind (arrayFacet_run hv hU ho) fun f' s' _ _ => Run.ret rfl
  | object f =>
    obtain ⟨o, ho, rfl⟩ := Option.map_eq_some_iff.1 hm
    exact Run.bind (objectFacet_run hv hU ho) fun f' s' _ _ => Run.ret rfl
  | _ => cases hm

theorem quiet_customFacet {key : String} {v : YNode} : Quiet (customFacet E a loc key v) := by
  unfold customFacet
  refine Quiet.bind (Quiet.lift noDiv_rootNode) fun n => Quiet.bind Quiet.getBase fun b => ?_
  cases b.facets with
  | none => exact Quiet.panic
  | some i => exact quiet_setFacet

/-- The base is there and made. -/
def MadeAt (s : St) (a : Addr) : Prop := ∃ b, s.base a = some b ∧ Made b

theorem MadeAt.mono {s' : St} {k : Nat} (h : MadeAt s a) (g : Adds Pl ex k s s') : MadeAt s' a := by
  obtain ⟨b, h1, h2⟩ := h
  obtain ⟨b', h3, _, h4⟩ := g.at_ a b h1
  exact ⟨b', h3, h4 h2⟩

theorem MadeAt.of {b : Base} (h : MadeAt s a) (hb : s.base a = some b) : Made b := by
  obtain ⟨b', h1, h2⟩ := h
  rw [hb] at h1; cases h1; exact h2

theorem unmarshalFacet_run {sh : Shape} {key : String} {v : YNode} (hx : ex a) (hv : Below Pl d U k c loc v) (hU : Pl.left s ≤ U) (hm : MadeAt s a) (hk : Kind sh ≠ "unknown") :
    Run Pl d ex k (unmarshalFacet E c a loc sh key v) s (fun sh' _ => Kind sh' ≠ "unknown") := by
  unfold unmarshalFacet
  cases hs : shapeFacet E c loc sh key v with
  | some m =>
    simp only
    refine Run.bind ((shapeFacet_run hv hU hs).inner (Nat.le_refl _)) fun sh' s1 g1 ⟨_, hk1⟩ => ?_
    refine Run.bind (Run.setShape hx (by rw [hk1]; exact hk) fun b hb => .inl ((hm.mono g1).of hb)) fun _ s2 _ _ => ?_
    exact Run.ret (by rw [hk1]; exact hk)
  | none => exact Run.bind quiet_customFacet.run fun _ s1 _ _ => Run.ret hk

theorem unmarshalFacets_run (hx : ex a) : ∀ (l : List YNode) {sh : Shape} {s : St}, (∀ u ∈ l, Below Pl d U k c loc u) → Pl.left s ≤ U → MadeAt s a → Kind sh ≠ "unknown" →
    Run Pl d ex k (unmarshalFacets E c a loc l sh) s (fun _ _ => True)
  | [], sh, s, _, _, _, _ => Run.ret trivial
  | [_], sh, s, _, _, _, _ => Run.ret trivial
  | key :: v :: rest, sh, s, hl, hU, hm, hk => by
    unfold unmarshalFacets
    refine Run.bind (unmarshalFacet_run hx (hl v (by simp)) hU hm hk) fun sh1 s1 g1 hk1 => ?_
    exact unmarshalFacets_run hx rest (fun u hu => hl u (by simp [hu])) (g1.left.trans hU) (hm.mono g1) hk1

/-- The facets are light enough for a type that is left to resolve. -/
def FacetsFit (Pl : Plan E) (k : Nat) (loc t : String) (facets : Option (List YNode)) : Prop := Pl.nodes loc (facets.getD []) + (if t = "" then 1 else 2) < k

theorem unmarshalYAMLNodes_run {t : String} {facets : Option (List YNode)} (hx : ex a) (hl : ∀ l, facets = some l → ∀ u ∈ l, Below Pl d U k c loc u) (hU : Pl.left s ≤ U)
    (hm : Kind (emptyShape t) ≠ "unknown" → MadeAt s a)
    (hu : Kind (emptyShape t) = "unknown" → FacetsFit Pl k loc t facets ∧ ∃ b, s.base a = some b ∧ b.type = t ∧ b.location = loc ∧ ¬ Made b) :
    Run Pl d ex k (unmarshalYAMLNodes E c a loc (emptyShape t) facets) s (fun _ _ => True) := by
  have hloop : ∀ sh : Shape, sh = emptyShape t → Kind sh ≠ "unknown" →
      Run Pl d ex k (if (facets.getD []).length % 2 ≠ 0 then M.err "odd number of nodes" else unmarshalFacets E c a loc (facets.getD []) sh) s (fun _ _ => True) := by
    intro sh hsh hnu
    split
    · exact Run.err
    · refine unmarshalFacets_run hx (facets.getD []) ?_ hU (hm (hsh ▸ hnu)) hnu
      intro u hu
      cases facets with
      | none => simp at hu
      | some l => exact hl l rfl u hu
  rcases emptyShape_cases t with h | h | h | h | h | h | h | h | h | h | h | h | h | h | h | h
  case inr.inr.inr.inr.inr.inr.inr.inr.inr.inr.inr.inr.inr.inl => rw [h]; exact Run.ret trivial
  case inr.inr.inr.inr.inr.inr.inr.inr.inr.inr.inr.inr.inr.inr.inl => rw [h]; exact Run.ret trivial
  case inr.inr.inr.inr.inr.inr.inr.inr.inr.inr.inr.inr.inr.inr.inr =>
    obtain ⟨hfit, b, hb, ht, hloc, hnm⟩ := hu (by rw [h]; rfl)
    rw [h]
    show Run Pl d ex k (setShape a (.unknown facets)) s _
    refine ⟨Adds.upd hx fun b' hb' => ?_, trivial⟩
    rw [hb] at hb'; cases hb'
    refine ⟨rfl, fun hm => absurd hm hnm, fun _ hm => ?_, fun _ => .inr ?_⟩
    · obtain ⟨sh, h1, h2⟩ := hm
      cases h1; exact absurd rfl h2
    · subst ht hloc; exact hfit
  all_goals
    have := hloop (emptyShape t) rfl (by rw [h]; simp [Kind])
    rw [h] at this ⊢
    exact this

theorem makeConcrete_run {t : String} {facets : Option (List YNode)} (hx : ex a)
    (hl : ∀ b, s.base a = some b → (∀ l, facets = some l → ∀ u ∈ l, Below Pl d U k c b.location u) ∧
      (Kind (emptyShape t) = "unknown" → FacetsFit Pl k b.location t facets ∧ ¬ Made b)) (hU : Pl.left s ≤ U) :
    Run Pl d ex k (makeConcrete E c a t facets) s (fun _ s' => Kind (emptyShape t) ≠ "unknown" → MadeAt s' a) := by
  unfold makeConcrete
  refine Run.bindGet fun b hb => ?_
  obtain ⟨h1, h2⟩ := hl b hb
  refine Run.bind (Q := fun _ s' => s'.base a = some { b with type := t, shape := some (emptyShape t) }) ?_ fun _ s1 g1 hb1 => ?_
  · refine ⟨Adds.upd hx fun b' hb' => ?_, ?_⟩
    · rw [hb] at hb'; cases hb'
      refine ⟨rfl, fun hm => ⟨_, rfl, fun hk => (h2 hk).2 hm⟩, fun _ ⟨sh, hs, hn⟩ => ?_, fun ⟨f, hf⟩ => .inr ?_⟩
      · cases hs; exact hn
      · have hf : emptyShape t = .unknown f := Option.some.inj hf
        have := (h2 (by rw [hf]; rfl)).1
        unfold FacetsFit at this
        have hf2 : f = none := by
          rcases emptyShape_cases t with h | h | h | h | h | h | h | h | h | h | h | h | h | h | h | h <;> rw [h] at hf <;> cases hf; rfl
        subst hf2
        unfold Plan.wt
        simp only [hf]
        simp only [Plan.nodes, Option.getD_none, listW]
        simp only [Plan.nodes] at this
        omega
    · exact base_upd.trans ((if_pos rfl).trans (by rw [hb]; rfl))
  · by_cases hk : Kind (emptyShape t) = "unknown"
    · refine (unmarshalYAMLNodes_run hx h1 (g1.left.trans hU) (fun h => absurd hk h) fun _ => ⟨(h2 hk).1, _, hb1, rfl, rfl, ?_⟩).post fun _ _ _ _ h => absurd hk h
      rintro ⟨sh, hs, hn⟩
      cases hs; exact hn hk
    · have hm : MadeAt s1 a := ⟨_, hb1, _, rfl, hk⟩
      exact (unmarshalYAMLNodes_run hx h1 (g1.left.trans hU) (fun _ => hm) fun h => absurd h hk).post fun _ _ g _ _ => hm.mono g

/-! ## Examples and annotations -/

theorem quiet_unmarshalExt {key v : YNode} : Quiet (unmarshalCustomDomainExtension E loc key v) :=
  Quiet.bind (Quiet.lift noDiv_annotationName) fun _ => Quiet.bind (Quiet.lift noDiv_rootNode) fun _ => Quiet.mk (fun _ => rfl) fun _ => rfl

theorem quiet_exampleDecode {key v : YNode} {e : Example} : Quiet (exampleDecode E loc key v e) := by
  unfold exampleDecode
  split
  · exact Quiet.bind (Quiet.lift noDiv_orErr) fun _ => Quiet.ret
  split
  · exact Quiet.bind (Quiet.lift noDiv_orErr) fun _ => Quiet.ret
  split
  · exact Quiet.bind (Quiet.lift noDiv_orErr) fun _ => Quiet.ret
  split
  · exact Quiet.bind quiet_unmarshalExt fun _ => Quiet.ret
  · exact Quiet.ret

theorem quiet_exampleEntries : ∀ (l : List YNode) {e : Example}, Quiet (exampleEntries E loc l e)
  | [], e => Quiet.ret
  | [_], e => Quiet.panic
  | k :: v :: rest, e => by
    unfold exampleEntries
    exact Quiet.bind quiet_exampleDecode fun e' => quiet_exampleEntries rest

theorem quiet_makeExample {v : YNode} : Quiet (makeExample E v loc) := by
  have hlast : Quiet (M.bind (M.lift (makeRootNode E v loc)) fun d => M.ret ({ data := d } : Example)) := Quiet.bind (Quiet.lift noDiv_rootNode) fun _ => Quiet.ret
  unfold makeExample
  split
  · refine Quiet.bind (Quiet.lift (noDiv_findValueKey _)) fun vk => ?_
    cases vk with
    | none => exact hlast
    | some valueKey => exact Quiet.bind (quiet_exampleEntries _) fun _ => Quiet.bind (Quiet.lift noDiv_rootNode) fun _ => Quiet.ret
  · exact hlast

theorem quiet_namedExamples : ∀ (l : List YNode) {m : OMap Example}, Quiet (namedExamples E loc l m)
  | [], m => Quiet.ret
  | [_], m => Quiet.panic
  | k :: v :: rest, m => by
    unfold namedExamples
    exact Quiet.bind quiet_makeExample fun _ => quiet_namedExamples rest

theorem decodeFragment_run {α : Type} {text : String} {f : YNode → M St α} {Q : α → St → Prop} (hf : ∀ y, E.yamlParse text = some y → Run Pl d ex k (f (docRoot y)) s Q) :
    Run Pl d ex k (decodeFragment E text f) s Q := by
  unfold decodeFragment
  cases hd : E.yamlParse text with
  | none => exact Run.err
  | some y =>
    simp only
    split
    · exact Run.panic
    split
    · exact Run.err
    · exact hf y hd

theorem decodeNamedExample_run {text path : String} : Run Pl d ex k (decodeNamedExample E text path) s (fun _ s' => s'.bases = s.bases) := by
  unfold decodeNamedExample
  refine Run.bind (Q := fun _ s' => s'.bases = s.bases) (decodeFragment_run fun y _ => (quiet_namedExamples _).run) fun m s2 _ e2 => ?_
  refine Run.bind quiet_newNE.run fun i s3 _ e3 => ?_
  exact Run.bind Run.putFragment fun _ s4 _ e4 => Run.ret (e4.1.trans (e3.trans e2))

theorem parseNamedExample_run {path : String} : Run Pl d ex k (parseNamedExample E path) s (fun _ s' => s'.bases = s.bases) := by
  cases hg : getFragment s path with
  | some fr =>
    cases fr with
    | namedExample i => exact Run.of_eq (m' := M.ret i) (by simp [parseNamedExample, hg, M.ret]) (Run.ret rfl)
    | library i => exact Run.of_eq (m' := M.panic "interface conversion") (by simp [parseNamedExample, hg, M.panic]) Run.panic
    | dataType i => exact Run.of_eq (m' := M.panic "interface conversion") (by simp [parseNamedExample, hg, M.panic]) Run.panic
  | none =>
    cases hf : E.file path with
    | none => exact Run.of_eq (m' := M.err "open fragment file") (by simp [parseNamedExample, hg, hf, M.err]) Run.err
    | some text =>
      refine Run.of_eq (m' := M.bind (M.lift (checkFragmentKind path text .namedExample)) fun _ => decodeNamedExample E text path) (by simp [parseNamedExample, hg, hf]) ?_
      exact Run.bindLift noDiv_checkKind fun _ _ => decodeNamedExample_run

/-! ## Types -/

/-- The base is there, with the location and without a shape. -/
def Blank (s : St) (a : Addr) (loc : String) : Prop := ∃ b, s.base a = some b ∧ b.location = loc ∧ b.shape = none

theorem Blank.of_bases {s' : St} (h : Blank s a loc) (e : s'.bases = s.bases) : Blank s' a loc := by
  obtain ⟨b, hb, hl⟩ := h
  exact ⟨b, by simpa only [St.base, e] using hb, hl⟩

theorem Blank.same {s' : St} {k : Nat} (h : Blank s a loc) (g : Adds Pl nothing k s s') : Blank s' a loc := by
  obtain ⟨b, hb, hl⟩ := h
  exact ⟨b, g.frame a b id hb, hl⟩

/-- Assigning fields of a base under construction. -/
theorem Run.assign {f : Base → Base} (hx : ex a) (ha : Blank s a loc) (hf : ∀ b, (f b).location = b.location ∧ (f b).shape = b.shape ∧ (f b).type = b.type) :
    Run Pl d ex k (Heap.updBase a f) s (fun _ s' => Blank s' a loc) := by
  refine (Run.upd hx hf).post fun _ s' _ h => ?_
  obtain ⟨b, hb, hl, hs⟩ := ha
  rw [hb] at h
  exact ⟨f b, h, (hf b).1.trans hl, (hf b).2.1.trans hs⟩

theorem decodeExamples_run {v : YNode} (hx : ex a) (ha : Blank s a loc) : Run Pl d ex k (decodeExamples E a loc v) s (fun _ s' => Blank s' a loc) := by
  unfold decodeExamples
  refine Run.bindGet fun b _ => ?_
  split
  · exact Run.err
  split
  · refine Run.bind parseNamedExample_run fun i s2 _ e2 => ?_
    refine Run.of_eq (m' := Heap.updBase a fun b => { b with examples := some { link := s2.nes[i]? } }) rfl ?_
    exact Run.assign hx (ha.of_bases e2) fun _ => ⟨rfl, rfl, rfl⟩
  split
  · exact Run.err
  · exact Run.bind (quiet_namedExamples _).run fun m s2 _ e2 => Run.assign hx (ha.of_bases e2) fun _ => ⟨rfl, rfl, rfl⟩

theorem decodeFacetDefs_run {i : Nat} : ∀ (l : List YNode) {s : St}, (∀ u ∈ l, Below Pl d U k c loc u) → Pl.left s ≤ U →
    Run Pl d nothing k (decodeFacetDefs E c loc i l) s (fun _ _ => True)
  | [], s, _, _ => Run.ret trivial
  | [_], s, _, _ => Run.panic
  | key :: v :: rest, s, hl, hU => by
    unfold decodeFacetDefs
    refine Run.bind ((hl v (by simp)).shape s key.value hU) fun a' s1 g1 _ => ?_
    refine Run.bindGet fun b _ => ?_
    exact Run.bind quiet_setProp.run fun _ s3 g3 _ => decodeFacetDefs_run rest (fun u hu => hl u (by simp [hu])) ((g1.trans g3).left.trans hU)

theorem nodes_append {l l' : List YNode} : Pl.nodes loc (l ++ l') = Pl.nodes loc l + Pl.nodes loc l' := by
  unfold Plan.nodes
  induction l with
  | nil => simp [listW]
  | cons n l ih => simp only [List.cons_append, listW, ih]; omega

theorem decodeValueNode_run {key v : YNode} (hx : ex a) (hv : Below Pl d U k c loc v) (hU : Pl.left s ≤ U) (ha : Blank s a loc) :
    Run Pl d ex k (decodeValueNode E c a loc key v) s
      (fun r s' => Blank s' a loc ∧ (∀ t, r.1 = some t → t = v) ∧ (r.2 = [] ∨ r.2 = [key, v])) := by
  have hnone : ∀ {s' : St}, Blank s' a loc → Blank s' a loc ∧ (∀ t, (none : Option YNode) = some t → t = v) ∧ (([] : List YNode) = [] ∨ ([] : List YNode) = [key, v]) :=
    fun h => ⟨h, (fun _ h => by cases h), .inl rfl⟩
  have hset : ∀ {s' : St} {f : Base → Base}, Blank s' a loc → (∀ b, (f b).location = b.location ∧ (f b).shape = b.shape ∧ (f b).type = b.type) →
      Run Pl d ex k (M.bind (Heap.updBase a f) fun _ => M.ret ((none, []) : Option YNode × List YNode)) s'
        (fun r s' => Blank s' a loc ∧ (∀ t, r.1 = some t → t = v) ∧ (r.2 = [] ∨ r.2 = [key, v])) :=
    fun ha' hf => Run.bind (Run.assign hx ha' hf) fun _ s2 _ h => Run.ret (hnone h)
  unfold decodeValueNode
  extract_lets none_
  by_cases hc : key.value = "type"
  · rw [if_pos hc]
    exact Run.ret ⟨ha, fun t h => by cases h; rfl, .inl rfl⟩
  rw [if_neg hc]
  by_cases hc : key.value = "displayName"
  · rw [if_pos hc]
    exact Run.bindLift noDiv_orErr fun _ _ => hset ha fun _ => ⟨rfl, rfl, rfl⟩
  rw [if_neg hc]
  by_cases hc : key.value = "description"
  · rw [if_pos hc]
    exact Run.bindLift noDiv_orErr fun _ _ => hset ha fun _ => ⟨rfl, rfl, rfl⟩
  rw [if_neg hc]
  by_cases hc : key.value = "required"
  · rw [if_pos hc]
    exact Run.bindLift noDiv_orErr fun _ _ => hset ha fun _ => ⟨rfl, rfl, rfl⟩
  rw [if_neg hc]
  by_cases hc : key.value = "facets"
  · rw [if_pos hc]
    refine Run.bind quiet_newProps.run fun i s1 g1 e1 => ?_
    refine Run.bind (Run.assign hx (ha.of_bases e1) fun _ => ⟨rfl, rfl, rfl⟩) fun _ s2 g2 h2 => ?_
    refine Run.bind ((decodeFacetDefs_run v.content (fun u hu => hv.content hu) ((g1.trans g2).left.trans hU)).inner (Nat.le_refl _)) fun _ s3 _ ⟨g3, _⟩ => ?_
    exact Run.ret (hnone (h2.same g3))
  rw [if_neg hc]
  by_cases hc : key.value = "example"
  · rw [if_pos hc]
    refine Run.bindGet fun b _ => ?_
    split
    · exact Run.err
    · exact Run.bind quiet_makeExample.run fun e s2 _ e2 => hset (ha.of_bases e2) fun _ => ⟨rfl, rfl, rfl⟩
  rw [if_neg hc]
  by_cases hc : key.value = "examples"
  · rw [if_pos hc]
    exact Run.bind (decodeExamples_run hx ha) fun _ s1 _ h1 => Run.ret (hnone h1)
  rw [if_neg hc]
  by_cases hc : key.value = "default"
  · rw [if_pos hc]
    exact Run.bindLift noDiv_rootNode fun _ _ => hset ha fun _ => ⟨rfl, rfl, rfl⟩
  rw [if_neg hc]
  by_cases hc : key.value = "allowedTargets"
  · rw [if_pos hc]
    exact Run.ret (hnone ha)
  rw [if_neg hc]
  by_cases hc : isCustomDomainExtensionNode key.value = true
  · rw [if_pos hc]
    exact Run.bind quiet_unmarshalExt.run fun nd s1 _ e1 => hset (ha.of_bases e1) fun _ => ⟨rfl, rfl, rfl⟩
  · rw [if_neg hc]
    exact Run.ret ⟨ha, (fun t h => by cases h), .inr rfl⟩

theorem decodeEntries_run (hx : ex a) : ∀ (l : List YNode) {t : Option YNode} {fs : List YNode} {s : St}, (∀ u ∈ l, Below Pl d U k c loc u) →
    (∀ u, t = some u → Below Pl d U k c loc u) → (∀ u ∈ fs, Below Pl d U k c loc u) → Pl.left s ≤ U → Blank s a loc →
    Run Pl d ex k (decodeEntries E c a loc l t fs) s
      (fun r s' => Blank s' a loc ∧ (∀ u, r.1 = some u → Below Pl d U k c loc u) ∧ (∀ u ∈ r.2, Below Pl d U k c loc u) ∧ Pl.nodes loc r.2 ≤ Pl.nodes loc fs + Pl.nodes loc l)
  | [], t, fs, s, _, ht, hfs, _, ha => Run.ret ⟨ha, ht, hfs, by simp⟩
  | [_], t, fs, s, _, _, _, _, _ => Run.panic
  | key :: v :: rest, t, fs, s, hl, ht, hfs, hU, ha => by
    unfold decodeEntries
    refine Run.bind (decodeValueNode_run hx (hl v (by simp)) hU ha) fun r s1 g1 ⟨h1, h2, h3⟩ => ?_
    have hw : Pl.nodes loc (key :: v :: rest) = Pl.nodes loc [key, v] + Pl.nodes loc rest := nodes_append (l := [key, v])
    refine (decodeEntries_run hx rest (fun u hu => hl u (by simp [hu])) ?_ ?_ (g1.left.trans hU) h1).post fun _ _ _ ⟨k1, k2, k3, k4⟩ => ⟨k1, k2, k3, ?_⟩
    · intro u hu
      cases hr : r.1 with
      | none => rw [hr] at hu; exact ht u hu
      | some t' =>
        rw [hr] at hu; cases hu
        rw [h2 _ hr]; exact hl v (by simp)
    · intro u hu
      rcases List.mem_append.1 hu with h | h
      · exact hfs u h
      · rcases h3 with h3 | h3 <;> rw [h3] at h
        · cases h
        · simp only [List.mem_cons, List.not_mem_nil, or_false] at h
          rcases h with rfl | rfl <;> exact hl _ (by simp)
    · rw [nodes_append] at k4
      rw [hw]
      rcases h3 with h3 | h3 <;> rw [h3] at k4
      · have : Pl.nodes loc [] = 0 := rfl
        omega
      · omega

theorem decode_run {v : YNode} (hx : ex a) (hv : Proper Pl d U k c loc v) (hU : Pl.left s ≤ U) (ha : Blank s a loc) :
    Run Pl d ex k (decode E c a loc v) s
      (fun r s' => Blank s' a loc ∧ (∀ u, r.1 = some u → Proper Pl d U k c loc u) ∧ (∀ l, r.2 = some l → ∀ u ∈ l, Below Pl d U k c loc u) ∧
        Pl.nodes loc (r.2.getD []) ≤ Pl.nodes loc v.content) := by
  unfold decode
  split
  · exact Run.ret ⟨ha, (fun u h => by cases h; exact hv), (fun l h => by cases h), by simp [Plan.nodes, listW]⟩
  split
  · exact Run.err
  · refine Run.bind (decodeEntries_run hx v.content hv.content (fun _ h => by cases h) (fun _ h => by cases h) hU ha) fun r s1 _ ⟨h1, h2, h3, h4⟩ => ?_
    refine Run.ret ⟨h1, (fun u h => (h2 u h).proper), (fun l h => by cases h; exact h3), ?_⟩
    have : Pl.nodes loc [] = 0 := rfl
    simp only [Option.getD_some]
    omega

theorem makeInherits_run {name : String} : ∀ (l : List YNode) {s : St}, (∀ u ∈ l, Below Pl d U k c loc u) → Pl.left s ≤ U →
    Run Pl d nothing k (makeInherits c name loc l) s (fun _ _ => True)
  | [], s, _, _ => Run.ret trivial
  | n :: rest, s, hl, hU => by
    unfold makeInherits
    split
    · exact Run.err
    split
    · exact Run.err
    · refine Run.bind ((hl n (by simp)).shape s name hU) fun a' s1 g1 _ => ?_
      exact Run.bind (makeInherits_run rest (fun u hu => hl u (by simp [hu])) (g1.left.trans hU)) fun as s2 _ _ => Run.ret trivial

theorem makeShapeType_run {t : YNode} {facets : Option (List YNode)} {name : String} (hx : ex a) (ht : Proper Pl d U k c loc t) (hU : Pl.left s ≤ U) (ha : Blank s a loc) :
    Run Pl d ex k (makeShapeType E c t facets name loc a) s (fun st s' => ∀ x, st = some x → Blank s' a loc) := by
  unfold makeShapeType
  cases hk : t.kind with
  | zero => exact Run.err
  | document => exact Run.err
  | mapping => exact Run.err
  | «alias» => exact Run.err
  | scalar =>
    simp only
    split
    · split
      · exact Run.bindLift noDiv_identify fun _ _ => Run.ret fun _ _ => ha
      split
      · obtain ⟨b, hb, hl, hs⟩ := ha
        have hnm : ∀ b' : Base, b'.shape = none → ¬ Made b' := fun b' h ⟨sh, h1, _⟩ => by rw [h] at h1; cases h1
        refine Run.bind (Q := fun _ s' => s'.base a = some { b with type := "json" }) ⟨Adds.upd hx fun b' hb' => ?_, ?_⟩ fun _ s1 g1 h1 => ?_
        · rw [hb] at hb'; cases hb'
          refine ⟨rfl, fun h => absurd h (hnm b hs), fun _ h => absurd h (hnm { b with type := "json" } hs), fun ⟨f, hf⟩ => ?_⟩
          have hf : b.shape = some (.unknown f) := hf
          rw [hs] at hf; cases hf
        · exact base_upd.trans ((if_pos rfl).trans (by rw [hb]; rfl))
        · refine Run.bindLift noDiv_orErr fun js _ => ?_
          refine Run.bind (Run.setShape hx (by simp [Kind]) fun b' hb' => .inr ?_) fun _ s2 _ _ => Run.ret fun _ h => by cases h
          rw [h1] at hb'; cases hb'; simp [Kind, emptyShape]
      · exact Run.ret fun _ _ => ha
    split
    · rename_i hinc
      refine Run.bind ((ht.inc hinc s hU).inner (Nat.le_refl _)) fun d s1 _ ⟨g1, _⟩ => ?_
      exact Run.bind (Run.assign hx (ha.same g1) fun _ => ⟨rfl, rfl, rfl⟩) fun _ s2 _ h1 => Run.ret fun _ _ => h1
    split
    · exact Run.ret fun _ _ => ha
    · exact Run.err
  | sequence =>
    simp only
    refine Run.bind ((makeInherits_run t.content ht.content hU).inner (Nat.le_refl _)) fun l s1 _ ⟨g1, _⟩ => ?_
    refine Run.bind quiet_newSlice.run fun i s2 _ e2 => ?_
    exact Run.bind (Run.assign hx ((ha.same g1).of_bases e2) fun _ => ⟨rfl, rfl, rfl⟩) fun _ s3 _ h1 => Run.ret fun _ _ => h1

theorem finishShape_run {t : String} {facets : Option (List YNode)} (hx : ex a) (hl : ∀ l, facets = some l → ∀ u ∈ l, Below Pl d U k c loc u)
    (hk : Pl.nodes loc (facets.getD []) + 2 < k) (hU : Pl.left s ≤ U) (ha : Blank s a loc) :
    Run Pl d ex k (finishShape E c a t facets) s (fun _ _ => True) := by
  unfold finishShape
  obtain ⟨b, hb, hloc, hs⟩ := ha
  subst hloc
  refine Run.bind (makeConcrete_run hx (fun b' hb' => ?_) hU) fun _ s1 _ _ => ?_
  · rw [hb] at hb'; cases hb'
    refine ⟨hl, fun _ => ⟨?_, fun ⟨sh, h1, _⟩ => by rw [hs] at h1; cases h1⟩⟩
    unfold FacetsFit
    split <;> omega
  · split
    · exact Run.bind quiet_pushUnresolved.run fun _ _ _ _ => Run.ret trivial
    · exact Run.ret trivial

/-- A new base. -/
theorem makeBaseShape_eq (name loc : String) (s : St) : ∃ b s', makeBaseShape name loc s = (.ok s.bases.length, s') ∧ s'.bases = s.bases ++ [b] ∧ s'.fragments = s.fragments ∧
    b.location = loc ∧ b.shape = none := ⟨_, _, rfl, rfl, rfl, rfl, rfl⟩

theorem adds_newBase {b : Base} {s' : St} (h : s'.bases = s.bases ++ [b]) (hf : s'.fragments = s.fragments) (hs : b.shape = none) : Adds Pl ex k s s' where
  frag := fun p f h => by simpa only [getFragment, hf] using h
  frame := fun x b' _ hb => by
    show s'.bases[x]? = _
    rw [h, List.getElem?_append_left (List.getElem?_eq_some_iff.1 hb).1]; exact hb
  at_ := fun x b' hb => ⟨b', by
    show s'.bases[x]? = _
    rw [h, List.getElem?_append_left (List.getElem?_eq_some_iff.1 hb).1]; exact hb, rfl, id⟩
  fresh := .inr fun y b' hb hu => by
    have hb : s'.bases[y]? = _ := hb
    rw [h] at hb
    rcases getElem?_snoc hb with ⟨h1, _⟩ | ⟨_, rfl⟩
    · exact .inl ⟨b', h1, hu, rfl⟩
    · obtain ⟨f, hf⟩ := hu; rw [hs] at hf; cases hf
  fair := fun hfair y b' hb => by
    have hb : s'.bases[y]? = _ := hb
    rw [h] at hb
    rcases getElem?_snoc hb with ⟨h1, _⟩ | ⟨_, rfl⟩
    · exact hfair y b' h1
    · rintro ⟨sh, hf, _⟩; rw [hs] at hf; cases hf

/-- Making a base, and going on with it. -/
theorem Run.newBase {β : Type} {name : String} {f : Addr → M St β} {R : β → St → Prop}
    (hf : ∀ a s', a = s.bases.length → Adds Pl nothing k s s' → Blank s' a loc → Run Pl d (fun x => ex x ∨ x = a) k (f a) s' R) :
    Run Pl d ex k (M.bind (makeBaseShape name loc) f) s R := by
  obtain ⟨b, s', he, hb, hfr, hl, hs⟩ := makeBaseShape_eq name loc s
  have g : ∀ ex, Adds Pl ex k s s' := fun ex => adds_newBase hb hfr hs
  have hbl : Blank s' s.bases.length loc := ⟨b, by show s'.bases[_]? = _; rw [hb]; simp, hl, hs⟩
  have h := hf _ s' rfl (g _) hbl
  have hn : ∀ x b, s.base x = some b → x ≠ s.bases.length := fun x b hb => Nat.ne_of_lt (List.getElem?_eq_some_iff.1 hb).1
  have hw : ∀ {t : St}, Adds Pl (fun x => ex x ∨ x = s.bases.length) k s' t → Adds Pl ex k s t := fun h => ((g _).trans h).widen (fun x b hb hx => hx.resolve_right (hn x b hb)) (Nat.le_refl _)
  have he2 : M.bind (makeBaseShape name loc) f s = f s.bases.length s' := by simp [M.bind, he]
  unfold Run at h ⊢
  rw [he2]
  cases hm : f s.bases.length s' with
  | mk o t =>
    rw [hm] at h
    cases o with
    | ok x => exact ⟨hw h.1, h.2⟩
    | err e => exact hw h
    | panic e => exact hw h
    | diverge => exact h

theorem makeNewShapeYAML_run {v : YNode} {name : String} (hv : Proper Pl d U k c loc v) (hk : Pl.node loc v ≤ k) (hU : Pl.left s ≤ U) :
    Run Pl d nothing k (makeNewShapeYAML E c v name loc) s (fun _ _ => True) := by
  have hc : Pl.nodes loc v.content + 2 < k := by
    cases v with
    | mk kd tag val content =>
      simp only [Plan.node, nodeW] at hk
      simp only [Plan.nodes, YNode.content]
      omega
  unfold makeNewShapeYAML
  refine Run.newBase fun a s1 _ g1 ha => ?_
  have hx : (fun x => nothing x ∨ x = a) a := .inr rfl
  refine Run.bind (decode_run hx hv (g1.left.trans hU) ha) fun r s2 g2 ⟨ha2, ht2, hl2, hw2⟩ => ?_
  have hU2 : Pl.left s2 ≤ U := g2.left.trans (g1.left.trans hU)
  cases hr : r.1 with
  | none =>
    simp only
    exact Run.bindLift noDiv_identify fun t _ => finishShape_run hx hl2 (by omega) hU2 ha2
  | some t =>
    simp only
    refine Run.bind (makeShapeType_run hx (ht2 t hr) hU2 ha2) fun st s3 g3 h3 => ?_
    cases st with
    | some shapeType => exact finishShape_run hx hl2 (by omega) (g3.left.trans hU2) (h3 _ rfl)
    | none => exact Run.ret trivial

end

end GoRaml.Halt
