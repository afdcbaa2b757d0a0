import Verif.Lemmas.TameShape
import Verif.Lemmas.ReadShape
import Verif.Lemmas.WholeAll

/-!
# Parsing without panics: declarations
-/

namespace GoRaml.Tame

open GoRaml GoRaml.Spec GoRaml.Load

variable {E : Env} {K : Vals E} {s : St} {Bad : St → Prop} {F : Addr → Prop} {a : Addr} {loc : String}

theorem at_grown {s' : St} (h : At s a loc) (g : Grown s s') : At s' a loc := by
  obtain ⟨b, hb, hl⟩ := h
  obtain ⟨b', hb', hl'⟩ := g.loc a b hb
  exact ⟨b', hb', hl'.trans hl⟩

theorem runs_makeBaseShape {name : String} (hw : Fit K s) :
    Runs K Bad F (makeBaseShape name loc) s fun a s' => a = s.bases.length ∧ At s' a loc := by
  unfold makeBaseShape
  refine Runs.bind (Runs.newID hw) fun id s1 hw1 _ e1 => ?_
  refine Runs.bind (Runs.newFacets hw1 (by simp)) fun fm s2 hw2 _ ⟨h2, e2⟩ => ?_
  refine Runs.bind (Runs.newProps hw2 (by simp)) fun fd s3 hw3 g3 ⟨h3, e3⟩ => ?_
  have hb : BaseFit K s3 { id, name, location := loc, facets := some fm, facetDefs := some fd } :=
    ⟨⟨ifSome_none, ⟨_, rfl, Nat.lt_of_lt_of_le h2 g3.grown.longer.fmaps⟩, ifSome_some h3, ifSome_none, ifSome_none, ifSome_none⟩,
      fun _ h => (by cases h), fun _ _ h => (by cases h), fun _ h => (by cases h), fun _ h => (by cases h), fun _ h => (by cases h), fun _ h => (by cases h), fun _ h => (by cases h)⟩
  refine Runs.bind (Runs.newBase hw3 hb) fun a s4 hw4 _ ⟨h4, _, e4⟩ => ?_
  have hat : At s4 a loc := ⟨_, by rw [h4, e4]; simp [St.base]; rfl, rfl⟩
  refine Runs.bind (Runs.putShape hw4) fun _ s5 hw5 _ e5 => Runs.ret hw5 ⟨?_, hat.of_bases e5⟩
  rw [h4, e3, e2, e1]

/-! ## Types from facets -/

theorem gets_identifyLoop : ∀ (l : List YNode) (st : String × Bool), l.length % 2 = 0 → Calm (identifyLoop l st)
  | [], _, _ => trivial
  | [_], _, h => by simp at h
  | k :: v :: rest, st, h => by
    unfold identifyLoop
    refine Gets.bind (P := fun _ => True) ?_ fun st' _ => gets_identifyLoop rest st' (even_tail h)
    unfold identifyStep
    cases facetType k.value with
    | none => trivial
    | some p => exact Gets.ite (fun _ => trivial) fun _ => trivial

theorem gets_identify {l : List YNode} (h : l.length % 2 = 0) : Gets (fun t => t ≠ "composite") (identifyShapeType l) := by
  have h1 : Calm (identifyShapeType l) := Gets.bind (gets_identifyLoop l _ h) fun _ _ => trivial
  cases ho : identifyShapeType l with
  | ok t =>
    intro e
    subst e
    exact Read.identify_known ho rfl
  | err e => trivial
  | panic e => rw [ho] at h1; exact h1
  | diverge => trivial

/-! ## Nodes -/

theorem typeNode_scalar {v : YNode} (h : TypeNode E loc v) (hk : v.kind = .scalar) :
    (v.tag = "!!str" → v.value ≠ "composite") ∧ (v.tag = "!include" → OnlyKind E (E.joinDir loc v.value) .dataType) := by
  cases h with
  | name _ h1 h2 => exact ⟨h1, h2⟩
  | parents h => rw [hk] at h; cases h
  | declaration h => rw [hk] at h; cases h
  | other h => exact absurd hk h

theorem typeNode_sequence {v : YNode} (h : TypeNode E loc v) (hk : v.kind = .sequence) : v.content ≠ [] ∧ ∀ u ∈ v.content, u.kind = .scalar → TypeNode E loc u := by
  cases h with
  | name h => rw [hk] at h; cases h
  | parents _ h1 h2 => exact ⟨h1, h2⟩
  | declaration h => rw [hk] at h; cases h
  | other _ h => exact absurd hk h

/-- The entries of a declaration. -/
structure DeclOK (E : Env) (loc : String) (l : List YNode) : Prop where
  shaped : ∀ u ∈ l, Shaped u
  type : ∀ k u, Entry k u l → k.value = "type" ∨ k.value = "items" → TypeNode E loc u
  inner : ∀ k u k' u', Entry k u l → k.value = "properties" ∨ k.value = "facets" → Entry k' u' u.content → TypeNode E loc u'
  pairs : ∀ k u, Entry k u l → k.value = "facets" → u.content.length % 2 = 0
  examples : ∀ k u, Entry k u l → k.value = "examples" → u.tag = "!include" → OnlyKind E (E.joinDir loc u.value) .namedExample

theorem typeNode_mapping {v : YNode} (hv : Shaped v) (h : TypeNode E loc v) (hk : v.kind = .mapping) : DeclOK E loc v.content := by
  cases h with
  | name h => rw [hk] at h; cases h
  | parents h => rw [hk] at h; cases h
  | declaration _ h1 h2 h3 h4 => exact ⟨fun u hu => shaped_content hv hu, h1, h2, h3, h4⟩
  | other _ _ h => exact absurd hk h

theorem DeclOK.tail {k v : YNode} {l : List YNode} (h : DeclOK E loc (k :: v :: l)) : DeclOK E loc l :=
  ⟨fun u hu => h.shaped u (by simp [hu]), fun k u he => h.type k u (.there he), fun k u k' u' he => h.inner k u k' u' (.there he), fun k u he => h.pairs k u (.there he),
    fun k u he => h.examples k u (.there he)⟩

theorem facetsOK_nil : FacetsOK E loc [] := ⟨fun _ h => by simp at h, fun _ _ h => (by cases h), fun _ _ _ _ h => (by cases h)⟩

theorem facetsOK_append {fs : List YNode} {k v : YNode} {l : List YNode} (hf : FacetsOK E loc fs) (he : fs.length % 2 = 0) (h : DeclOK E loc (k :: v :: l)) : FacetsOK E loc (fs ++ [k, v]) := by
  refine ⟨fun u hu => ?_, fun k' u' h' hk => ?_, fun k' u' k'' u'' h' hk => ?_⟩
  · rcases List.mem_append.1 hu with hu | hu
    · exact hf.shaped u hu
    · refine h.shaped u ?_
      simp only [List.mem_cons, List.not_mem_nil, or_false] at hu
      rcases hu with rfl | rfl <;> simp
  · rcases entry_append he h' with h' | h'
    · exact hf.items k' u' h' hk
    · cases h' with
      | here => exact h.type _ _ .here (.inr hk)
      | there h' => cases h'
  · rcases entry_append he h' with h' | h'
    · exact hf.properties k' u' k'' u'' h' hk
    · cases h' with
      | here => exact h.inner _ _ k'' u'' .here (.inl hk)
      | there h' => cases h'

/-! ## Fragments -/

theorem ofKind_of_check {p text : String} {k : FragmentKind} (hf : E.file p = some text) (h : checkFragmentKind p text k = .ok ()) : OfKind E p k :=
  ⟨text, hf, (Props.c55_check_kind p text k).1 h⟩

theorem calm_readHead {t : String} : Calm (readHead t) := by
  unfold readHead
  split
  · exact trivial
  · exact trivial

theorem calm_identifyFragment {t : String} : Calm (identifyFragment t) :=
  Gets.ite (fun _ => trivial) fun _ => Gets.ite (fun _ => trivial) fun _ => Gets.ite (fun _ => trivial) fun _ => trivial

theorem calm_check {p text : String} {k : FragmentKind} : Calm (checkFragmentKind p text k) :=
  Gets.ite (fun _ => trivial) fun _ => Gets.bind (P := fun _ => True) calm_readHead fun _ _ =>
    Gets.bind (P := fun _ => True) calm_identifyFragment fun _ _ => Gets.ite (fun _ => trivial) fun _ => trivial

theorem shaped_root {d : YNode} (h : Shaped d) : Shaped (docRoot d) := by
  match d, h with
  | .mk .document _ _ (n :: _), h => exact shaped_content h (List.mem_cons_self ..)
  | .mk .document _ _ [], h => exact h
  | .mk .zero _ _ _, h => exact h
  | .mk .scalar _ _ _, h => exact h
  | .mk .mapping _ _ _, h => exact h
  | .mk .sequence _ _ _, h => exact h
  | .mk .alias _ _ _, h => exact h

theorem runs_decodeFragment {α : Type} {text : String} {f : YNode → M St α} {Q : α → St → Prop} (hy : Yaml E) (hw : Fit K s)
    (hn : ∀ d, E.yamlParse text = some d → (docRoot d).tag ≠ "!!null")
    (hf : ∀ d, E.yamlParse text = some d → Shaped (docRoot d) → (docRoot d).kind = .mapping → Runs K Bad F (f (docRoot d)) s Q) : Runs K Bad F (decodeFragment E text f) s Q := by
  unfold decodeFragment
  cases hd : E.yamlParse text with
  | none => exact Runs.err hw
  | some d =>
    simp only
    rw [if_neg (hn d hd)]
    split
    · exact Runs.err hw
    · rename_i hk
      exact hf d hd (shaped_root (hy _ d hd)) (Decidable.not_not.1 hk)

theorem runs_decodeNamedExample {path text : String} (ho : Orderly E) (hw : Fit K s) (hf : E.file path = some text) (hok : OfKind E path .namedExample) :
    Runs K Bad F (decodeNamedExample E text path) s fun _ s' => s'.bases = s.bases := by
  unfold decodeNamedExample
  refine Runs.bind (runs_decodeFragment ho.yaml hw (fun d hd => ho.notNull path _ d hok ⟨text, hf, hd⟩)
    fun d hd hs hm => runs_namedExamples ho.yaml _ [] s hw (fun u hu => shaped_content hs hu) (shaped_even hs hm) (by simp)) fun m s2 hw2 _ e2 => ?_
  refine Runs.bind (Q := fun i s' => i < s'.nes.length ∧ s'.bases = s2.bases) ?_ fun i s3 hw3 _ e3 => ?_
  · have := Runs.newNE (K := K) (Bad := Bad) (F := F) (d := m) hw2
    exact Tame.of rfl (this.ok rfl).1 (this.ok rfl).2.1 ⟨(this.ok rfl).2.2, rfl⟩
  refine Runs.bind (Q := fun _ s' => s'.bases = s3.bases) ?_ fun _ s4 hw4 _ e4 => Runs.ret hw4 (e4.trans (e3.2.trans e2.2))
  have := Runs.putFragment (K := K) (Bad := Bad) (F := F) (f := .namedExample i) hw3 e3.1 hok
  cases hp : OMap.get s3.fragments path with
  | some x =>
    have e : putFragment path (.namedExample i) s3 = (.ok (), s3) := by simp [putFragment, hp]
    exact Tame.of e (this.ok e).1 (this.ok e).2.1 rfl
  | none =>
    have e : putFragment path (.namedExample i) s3 = (.ok (), { s3 with fragments := OMap.set s3.fragments path (.namedExample i) }) := by simp [putFragment, hp]
    exact Tame.of e (this.ok e).1 (this.ok e).2.1 rfl

theorem runs_parseNamedExample {path : String} (ho : Orderly E) (hw : Fit K s) (hk : OnlyKind E path .namedExample) :
    Runs K Bad F (parseNamedExample E path) s fun _ s' => s'.bases = s.bases := by
  cases hg : getFragment s path with
  | some x =>
    have hx := hw.frags _ (Whole.mem_get hg)
    cases x with
    | namedExample i => exact Tame.congr (m := M.ret i) (by simp [parseNamedExample, hg, M.ret]) (Runs.ret hw rfl)
    | library i => exact absurd (hk _ hx.2) (by simp [refKind])
    | dataType i => exact absurd (hk _ hx.2) (by simp [refKind])
  | none =>
    cases hf : E.file path with
    | none => exact Tame.congr (m := M.err "open fragment file") (by simp [parseNamedExample, hg, hf, M.err]) (Runs.err hw)
    | some text =>
      refine Tame.congr (m := M.bind (M.lift (checkFragmentKind path text .namedExample)) fun _ => decodeNamedExample E text path) (by simp [parseNamedExample, hg, hf]) ?_
      refine Runs.bind (Q := fun _ s' => s' = s ∧ OfKind E path .namedExample) (Runs.lift hw (calm_check).ne fun _ h => ⟨rfl, ofKind_of_check hf h⟩) fun _ s1 hw1 _ ⟨e1, hok⟩ => ?_
      subst e1
      exact runs_decodeNamedExample ho hw1 hf hok

/-! ## Declarations -/

section
variable (ho : Orderly E) {c : Calls} (hc : CallsOK K Bad c)

include hc

theorem runs_decodeFacetDefs {i : Nat} : ∀ (l : List YNode) (s : St), Fit K s → (∀ u ∈ l, Shaped u) → l.length % 2 = 0 → (∀ k u, Entry k u l → TypeNode E loc u) →
    Runs K Bad none_ (decodeFacetDefs E c loc i l) s fun _ _ => True
  | [], s, hw, _, _, _ => Runs.ret hw trivial
  | [_], _, _, _, h, _ => by simp at h
  | k :: v :: rest, s, hw, hl, he, ht => by
    unfold decodeFacetDefs
    refine Runs.bind (hc.shape v k.value loc s hw (hl v (by simp)) (ht _ _ .here)) fun a s1 hw1 _ ha => ?_
    refine Runs.bind (Runs.getBase hw1 ha) fun b s2 hw2 _ ⟨e, _⟩ => ?_
    subst e
    refine Runs.bind (Runs.setProp hw2 ?_) fun _ s3 hw3 _ _ => runs_decodeFacetDefs rest s3 hw3 (fun u hu => hl u (by simp [hu])) (even_tail he) fun k u h => ht k u (.there h)
    unfold nameProperty
    split <;> exact ha

omit hc in
/-- Setting fields of a base. -/
theorem runs_set {f : Base → Base} (hw : Fit K s) (hF : F a) (ha : At s a loc) (hl : ∀ b, (f b).location = b.location) (hf : ∀ b, BaseFit K s b → BaseFit K s (f b)) :
    Runs K Bad F (Heap.updBase a f) s fun _ s' => At s' a loc :=
  (Runs.upd hw hF (fun b _ => hl b) fun b _ h => hf b h).post fun _ _ _ g _ => at_grown ha g.grown

include ho

omit hc in
theorem runs_decodeExamples {v : YNode} (hw : Fit K s) (hF : F a) (ha : At s a loc) (hv : Shaped v) (hi : v.tag = "!include" → OnlyKind E (E.joinDir loc v.value) .namedExample) :
    Runs K Bad F (decodeExamples E a loc v) s fun _ s' => At s' a loc := by
  unfold decodeExamples
  refine Runs.bind (Runs.getBase hw ha.isBase) fun b s1 hw1 _ ⟨e, _⟩ => ?_
  subst e
  split
  · exact Runs.err hw1
  split
  · rename_i h
    refine Runs.bind (runs_parseNamedExample ho hw1 (hi h.2)) fun i s2 hw2 g2 e2 => ?_
    refine Tame.congr (m := Heap.updBase a fun b => { b with examples := some { link := s2.nes[i]? } }) rfl ?_
    exact runs_set hw2 hF (at_grown ha g2.grown) (fun _ => rfl) fun b hb => { hb with
      ptrs := ⟨hb.ptrs.1, hb.ptrs.2, hb.ptrs.3, hb.ptrs.4, hb.ptrs.5, hb.ptrs.6⟩
      examples := fun exs m h h' => by cases h; cases h' }
  split
  · exact Runs.err hw1
  · rename_i hk
    refine Runs.bind (runs_namedExamples ho.yaml _ [] s1 hw1 (fun u hu => shaped_content hv hu) (shaped_even hv (Decidable.not_not.1 hk)) (by simp)) fun m s2 hw2 g2 e2 => ?_
    exact runs_set hw2 hF (at_grown ha g2.grown) (fun _ => rfl) fun b hb => { hb with
      ptrs := ⟨hb.ptrs.1, hb.ptrs.2, hb.ptrs.3, hb.ptrs.4, hb.ptrs.5, hb.ptrs.6⟩
      examples := fun exs m h h' => by cases h; cases h'; exact e2.1 }

theorem runs_decodeValueNode {k v : YNode} {l : List YNode} (hw : Fit K s) (hF : F a) (ha : At s a loc) (hd : DeclOK E loc (k :: v :: l)) :
    Runs K Bad F (decodeValueNode E c a loc k v) s fun r s' => At s' a loc ∧ (∀ t, r.1 = some t → t = v ∧ k.value = "type") ∧ (r.2 = [] ∨ r.2 = [k, v]) := by
  have hv : Shaped v := hd.shaped v (by simp)
  have hnone : ∀ {s' : St}, At s' a loc → At s' a loc ∧ (∀ t, (none : Option YNode) = some t → t = v ∧ k.value = "type") ∧ (([] : List YNode) = [] ∨ ([] : List YNode) = [k, v]) :=
    fun h => ⟨h, (fun _ h => by cases h), .inl rfl⟩
  have hset : ∀ {s' : St} {f : Base → Base}, Fit K s' → At s' a loc → (∀ b, (f b).location = b.location) → (∀ b, BaseFit K s' b → BaseFit K s' (f b)) →
      Runs K Bad F (M.bind (Heap.updBase a f) fun _ => M.ret ((none, []) : Option YNode × List YNode)) s'
        fun r s' => At s' a loc ∧ (∀ t, r.1 = some t → t = v ∧ k.value = "type") ∧ (r.2 = [] ∨ r.2 = [k, v]) :=
    fun hw' ha' hl hf => Runs.bind (runs_set hw' hF ha' hl hf) fun _ s2 hw2 _ h => Runs.ret hw2 (hnone h)
  unfold decodeValueNode
  extract_lets none_'
  by_cases hc1 : k.value = "type"
  · rw [if_pos hc1]
    exact Runs.ret hw ⟨ha, fun t h => by cases h; exact ⟨rfl, hc1⟩, .inl rfl⟩
  rw [if_neg hc1]
  by_cases hc1 : k.value = "displayName"
  · rw [if_pos hc1]
    refine Runs.bind (Runs.gets (Q := fun _ s' => s' = s) hw calm_orErr fun _ _ => rfl) fun _ s1 hw1 _ e => ?_
    subst e
    exact hset hw1 ha (fun _ => rfl) fun b h => h.congr rfl rfl rfl rfl rfl rfl rfl rfl rfl rfl rfl
  rw [if_neg hc1]
  by_cases hc1 : k.value = "description"
  · rw [if_pos hc1]
    refine Runs.bind (Runs.gets (Q := fun _ s' => s' = s) hw calm_orErr fun _ _ => rfl) fun _ s1 hw1 _ e => ?_
    subst e
    exact hset hw1 ha (fun _ => rfl) fun b h => h.congr rfl rfl rfl rfl rfl rfl rfl rfl rfl rfl rfl
  rw [if_neg hc1]
  by_cases hc1 : k.value = "required"
  · rw [if_pos hc1]
    refine Runs.bind (Runs.gets (Q := fun _ s' => s' = s) hw calm_orErr fun _ _ => rfl) fun _ s1 hw1 _ e => ?_
    subst e
    exact hset hw1 ha (fun _ => rfl) fun b h => h.congr rfl rfl rfl rfl rfl rfl rfl rfl rfl rfl rfl
  rw [if_neg hc1]
  by_cases hc1 : k.value = "facets"
  · rw [if_pos hc1]
    refine Runs.bind (Runs.newProps hw (by simp)) fun i s1 hw1 g1 ⟨hi, e1⟩ => ?_
    refine Runs.bind (runs_set hw1 hF (at_grown ha g1.grown) (fun _ => rfl) fun b hb => { hb with
      ptrs := ⟨hb.ptrs.1, hb.ptrs.2, ifSome_some hi, hb.ptrs.4, hb.ptrs.5, hb.ptrs.6⟩ }) fun _ s2 hw2 _ h2 => ?_
    refine Runs.bind (Runs.wide (runs_decodeFacetDefs hc v.content s2 hw2 (fun u hu => shaped_content hv hu) (hd.pairs k v .here hc1)
      fun k' u' h => hd.inner k v k' u' .here (.inr hc1) h)) fun _ s3 hw3 g3 _ => ?_
    exact Runs.ret hw3 (hnone (at_grown h2 g3.grown))
  rw [if_neg hc1]
  by_cases hc1 : k.value = "example"
  · rw [if_pos hc1]
    refine Runs.bind (Runs.getBase hw ha.isBase) fun b s1 hw1 _ ⟨e, _⟩ => ?_
    subst e
    split
    · exact Runs.err hw1
    · refine Runs.bind (runs_makeExample ho.yaml hw1 hv) fun ex s2 hw2 g2 e2 => ?_
      exact hset hw2 (at_grown ha g2.grown) (fun _ => rfl) fun b hb => { hb with
        ptrs := ⟨hb.ptrs.1, hb.ptrs.2, hb.ptrs.3, hb.ptrs.4, hb.ptrs.5, hb.ptrs.6⟩
        «example» := fun x h => by cases h; exact e2.1 }
  rw [if_neg hc1]
  by_cases hc1 : k.value = "examples"
  · rw [if_pos hc1]
    exact Runs.bind (runs_decodeExamples ho hw hF ha hv (hd.examples k v .here hc1)) fun _ s1 hw1 _ h1 => Runs.ret hw1 (hnone h1)
  rw [if_neg hc1]
  by_cases hc1 : k.value = "default"
  · rw [if_pos hc1]
    refine Runs.bind (Runs.gets (Q := fun d s' => s' = s ∧ K.V d) hw (gets_root (K := K) ho.yaml hv) fun _ h => ⟨rfl, h⟩) fun d s1 hw1 _ ⟨e, hdv⟩ => ?_
    subst e
    exact hset hw1 ha (fun _ => rfl) fun b hb => { hb with
        ptrs := ⟨hb.ptrs.1, hb.ptrs.2, hb.ptrs.3, hb.ptrs.4, hb.ptrs.5, hb.ptrs.6⟩
        default := fun x h => by cases h; exact hdv }
  rw [if_neg hc1]
  by_cases hc1 : k.value = "allowedTargets"
  · rw [if_pos hc1]
    exact Runs.ret hw (hnone ha)
  rw [if_neg hc1]
  by_cases hc1 : isCustomDomainExtensionNode k.value = true
  · rw [if_pos hc1]
    refine Runs.bind (runs_extension ho.yaml hw hc1 hv) fun nd s1 hw1 g1 e1 => ?_
    exact hset hw1 (at_grown ha g1.grown) (fun _ => rfl) fun b h => h.congr rfl rfl rfl rfl rfl rfl rfl rfl rfl rfl rfl
  · rw [if_neg hc1]
    exact Runs.ret hw ⟨ha, (fun t h => by cases h), .inr rfl⟩

/-- What has been read of a declaration. -/
structure ReadOK (E : Env) (loc : String) (t : Option YNode) (fs : List YNode) : Prop where
  type : ∀ u, t = some u → TypeNode E loc u ∧ Shaped u
  facets : FacetsOK E loc fs
  even : fs.length % 2 = 0

theorem runs_decodeEntries (hF : F a) : ∀ (l : List YNode) (t : Option YNode) (fs : List YNode) (s : St), DeclOK E loc l → l.length % 2 = 0 → ReadOK E loc t fs → Fit K s → At s a loc →
    Runs K Bad F (decodeEntries E c a loc l t fs) s fun r s' => At s' a loc ∧ ReadOK E loc r.1 r.2
  | [], t, fs, s, _, _, hr, hw, ha => Runs.ret hw ⟨ha, hr⟩
  | [_], _, _, _, _, h, _, _, _ => by simp at h
  | k :: v :: rest, t, fs, s, hd, he, hr, hw, ha => by
    unfold decodeEntries
    refine Runs.bind (runs_decodeValueNode ho hc hw hF ha hd) fun r s1 hw1 _ ⟨h1, h2, h3⟩ => ?_
    refine runs_decodeEntries hF rest _ _ s1 hd.tail (even_tail he) ⟨fun u hu => ?_, ?_, ?_⟩ hw1 h1
    · cases h4 : r.1 with
      | none => rw [h4] at hu; exact hr.type u hu
      | some t' =>
        rw [h4] at hu; cases hu
        obtain ⟨rfl, hk⟩ := h2 _ h4
        exact ⟨hd.type _ _ .here (.inl hk), hd.shaped _ (by simp)⟩
    · rcases h3 with h3 | h3 <;> rw [h3]
      · rw [List.append_nil]; exact hr.facets
      · exact facetsOK_append hr.facets hr.even hd
    · rcases h3 with h3 | h3 <;> rw [h3]
      · rw [List.append_nil]; exact hr.even
      · have := hr.even
        simp; omega

theorem runs_decode {v : YNode} (hw : Fit K s) (hF : F a) (ha : At s a loc) (hv : Shaped v) (ht : TypeNode E loc v) :
    Runs K Bad F (decode E c a loc v) s fun r s' => At s' a loc ∧ ReadOK E loc r.1 (r.2.getD []) := by
  unfold decode
  split
  · exact Runs.ret hw ⟨ha, fun u h => by cases h; exact ⟨ht, hv⟩, facetsOK_nil, rfl⟩
  split
  · exact Runs.err hw
  · rename_i hk
    have hk := Decidable.not_not.1 hk
    refine Runs.bind (runs_decodeEntries ho hc hF v.content none [] s (typeNode_mapping hv ht hk) (shaped_even hv hk) ⟨fun _ h => (by cases h), facetsOK_nil, rfl⟩ hw ha)
      fun r s1 hw1 _ h1 => Runs.ret hw1 h1

omit ho in
theorem runs_makeInherits {name : String} : ∀ (l : List YNode) (s : St), Fit K s → (∀ u ∈ l, Shaped u) → (∀ u ∈ l, u.kind = .scalar → TypeNode E loc u) →
    Runs K Bad none_ (makeInherits c name loc l) s fun as s' => (∀ x ∈ as, IsBase s' x) ∧ (l ≠ [] → as ≠ [])
  | [], s, hw, _, _ => Runs.ret hw ⟨by simp, fun h => absurd rfl h⟩
  | n :: rest, s, hw, hl, ht => by
    unfold makeInherits
    split
    · exact Runs.err hw
    rename_i hk
    split
    · exact Runs.err hw
    · refine Runs.bind (hc.shape n name loc s hw (hl n (by simp)) (ht n (by simp) (Decidable.not_not.1 hk))) fun a s1 hw1 _ ha => ?_
      refine Runs.bind (runs_makeInherits rest s1 hw1 (fun u hu => hl u (by simp [hu])) fun u hu => ht u (by simp [hu])) fun as s2 hw2 g2 has => ?_
      refine Runs.ret hw2 ⟨fun x hx => ?_, fun _ => by simp⟩
      rcases List.mem_cons.1 hx with rfl | h
      · exact g2.grown.isBase ha
      · exact has.1 x h

omit ho in
theorem runs_makeShapeType {t : YNode} {facets : Option (List YNode)} {name : String} (hw : Fit K s) (hF : F a) (ha : At s a loc) (hr : ReadOK E loc (some t) (facets.getD [])) :
    Runs K Bad F (makeShapeType E c t facets name loc a) s
      fun st s' => At s' a loc ∧ (st = some "composite" → ∀ b, s'.base a = some b → s'.slice b.inherits ≠ []) := by
  obtain ⟨ht, hs⟩ := hr.type t rfl
  unfold makeShapeType
  cases hk : t.kind with
  | zero => exact Runs.err hw
  | document => exact Runs.err hw
  | mapping => exact Runs.err hw
  | «alias» => exact Runs.err hw
  | scalar =>
    obtain ⟨hn, hi⟩ := typeNode_scalar ht hk
    simp only
    split
    · rename_i htag
      split
      · refine Runs.bind (Runs.gets (Q := fun t s' => s' = s ∧ t ≠ "composite") hw (gets_identify hr.even) fun _ h => ⟨rfl, h⟩) fun x s1 hw1 _ ⟨e, hx⟩ => ?_
        subst e
        exact Runs.ret hw1 ⟨ha, fun h => absurd (Option.some.inj h) hx⟩
      split
      · have hset := Runs.upd (Bad := Bad) (f := fun b => { b with type := "json" }) hw hF (fun _ _ => rfl) (fun b _ hb => { hb with
          ptrs := ⟨hb.ptrs.1, hb.ptrs.2, hb.ptrs.3, hb.ptrs.4, hb.ptrs.5, hb.ptrs.6⟩
          parents := fun _ _ h => absurd h (by simp)
          known := fun _ _ _ f h => by simp [emptyShape] at h })
        refine Runs.bind hset fun _ s1 hw1 g1 e1 => ?_
        refine Runs.bind (Runs.gets (Q := fun _ s' => s' = s1) hw1 calm_orErr fun _ _ => rfl) fun js s2 hw2 _ e => ?_
        subst e
        refine Runs.bind (Q := fun _ s' => At s' a loc) ?_ fun _ s3 hw3 _ h3 => Runs.ret hw3 ⟨h3, fun h => by cases h⟩
        refine (Runs.upd (f := fun b => { b with shape := some (.json t.value (some js)) }) hw2 hF (fun _ _ => rfl) fun b hb hf =>
          hf.setShape ?_ ⟨trivial, fun _ h => (by cases h), fun ⟨_, h⟩ => (by cases h)⟩).post fun _ _ _ g _ => at_grown (at_grown ha g1.grown) g.grown
        obtain ⟨b0, hb0, _⟩ := ha
        rw [e1, modify_base hb0] at hb; cases hb
        exact fun f h => by simp [emptyShape] at h
      · exact Runs.ret hw ⟨ha, fun h => absurd (Option.some.inj h) (hn htag)⟩
    split
    · rename_i hinc
      refine Runs.bind (Runs.wide (hc.type _ s hw (hi hinc))) fun d s1 hw1 g1 hd => ?_
      refine Runs.bind (runs_set hw1 hF (at_grown ha g1.grown) (fun _ => rfl) fun b hb => { hb with
        ptrs := ⟨hb.ptrs.1, hb.ptrs.2, hb.ptrs.3, hb.ptrs.4, hb.ptrs.5, ifSome_some hd⟩ }) fun _ s2 hw2 _ h2 => ?_
      exact Runs.ret hw2 ⟨h2, fun h => by simp at h⟩
    split
    · exact Runs.ret hw ⟨ha, fun h => by simp at h⟩
    · exact Runs.err hw
  | sequence =>
    obtain ⟨hne, hi⟩ := typeNode_sequence ht hk
    simp only
    refine Runs.bind (Runs.wide (runs_makeInherits hc t.content s hw (fun u hu => shaped_content hs hu) hi)) fun l s1 hw1 g1 hl => ?_
    refine Runs.bind (Runs.newSlice hw1 hl.1) fun i s2 hw2 g2 ⟨hi, hsl, e2⟩ => ?_
    have hu : ∀ {b : Base}, BaseFit K s2 b → BaseFit K s2 { b with inherits := some i } := fun hb => { hb with
      ptrs := ⟨hb.ptrs.1, hb.ptrs.2, hb.ptrs.3, hb.ptrs.4, ifSome_some hi, hb.ptrs.6⟩
      parents := fun _ _ _ => by rw [hsl]; exact hl.2 hne }
    refine Runs.bind (Runs.upd (f := fun b => { b with inherits := some i }) hw2 hF (fun _ _ => rfl) fun b _ hb => hu hb) fun _ s3 hw3 g3 e3 => ?_
    have ha2 := at_grown (at_grown ha g1.grown) g2.grown
    refine Runs.ret hw3 ⟨at_grown ha2 g3.grown, fun _ b hb => ?_⟩
    obtain ⟨b0, hb0, _⟩ := ha2
    rw [e3, modify_base hb0] at hb; cases hb
    rw [g3.grown.slice (ifSome_some hi), hsl]
    exact hl.2 hne

theorem runs_finishShape {t : String} {facets : Option (List YNode)} (hw : Fit K s) (hF : F a) (ha : At s a loc) (hf : FacetsOK E loc (facets.getD []))
    (hp : t = "composite" → ∀ b, s.base a = some b → s.slice b.inherits ≠ []) : Runs K Bad F (finishShape E c a t facets) s fun x s' => IsBase s' x := by
  unfold finishShape
  have hst : Stored E s a t facets := ⟨fun b fs hb hfs => by
    obtain ⟨b', hb', hl⟩ := ha
    rw [hb] at hb'; cases hb'
    rw [hl]
    rw [hfs] at hf
    exact hf, fun b hb ht => hp ht b hb⟩
  refine Runs.bind (runs_makeConcrete ho.yaml hc hF hw ha.isBase hst) fun _ s1 hw1 g1 _ => ?_
  have hi := g1.grown.isBase ha.isBase
  cases emptyShape t with
  | unknown f => exact Runs.bind (Runs.pushUnresolved hw1 hi) fun _ s2 hw2 g2 _ => Runs.ret hw2 (g2.grown.isBase hi)
  | _ => exact Runs.ret hw1 hi

theorem runs_makeNewShapeYAML {v : YNode} {name : String} (hw : Fit K s) (hv : Shaped v) (ht : TypeNode E loc v) :
    Runs K Bad none_ (makeNewShapeYAML E c v name loc) s fun a s' => IsBase s' a := by
  refine Tame.move (R1 := Dec fun x => s.bases.length ≤ x) ?_ fun s' _ d => d.weaken fun x hx hl => (Nat.lt_irrefl _ (Nat.lt_of_lt_of_le hx hl)).elim
  show Runs K Bad (fun x => s.bases.length ≤ x) _ s _
  unfold makeNewShapeYAML
  refine Runs.bind (runs_makeBaseShape (name := name) (loc := loc) hw) fun a s1 hw1 _ ⟨e, ha⟩ => ?_
  have hF : s.bases.length ≤ a := Nat.le_of_eq e.symm
  refine Runs.bind (runs_decode ho hc hw1 hF ha hv ht) fun r s2 hw2 _ ⟨ha2, hr⟩ => ?_
  cases hr1 : r.1 with
  | none =>
    refine Runs.bind (Runs.gets (Q := fun t s' => s' = s2 ∧ t ≠ "composite") hw2 (gets_identify hr.even) fun _ h => ⟨rfl, h⟩) fun x s3 hw3 _ ⟨e, hx⟩ => ?_
    subst e
    exact runs_finishShape ho hc hw3 hF ha2 hr.facets fun h => absurd h hx
  | some t =>
    rw [hr1] at hr
    refine Runs.bind (runs_makeShapeType hc hw2 hF ha2 hr) fun st s3 hw3 _ ⟨ha3, h3⟩ => ?_
    cases st with
    | none => exact Runs.ret hw3 ha3.isBase
    | some shapeType => exact runs_finishShape ho hc hw3 hF ha3 hr.facets fun h => h3 (by rw [h])

end

end GoRaml.Tame
