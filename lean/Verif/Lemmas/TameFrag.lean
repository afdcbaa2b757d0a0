import Verif.Lemmas.TameDecode

/-!
# Parsing without panics: fragments
-/

namespace GoRaml.Tame

open GoRaml GoRaml.Spec GoRaml.Load

variable {E : Env} {K : Vals E} {s : St} {Bad : St → Prop} {F : Addr → Prop} {p : String}

/-- Libraries that are to be loaded. -/
def UsesOK (E : Env) (p : String) (u : OMap (String × Option Nat)) : Prop := ∀ e ∈ u, e.2.2 = none ∧ OnlyKind E (E.joinDir p e.2.1) .library

theorem usesOK_nil : UsesOK E p [] := fun _ h => by cases h

theorem UsesOK.uses {u : OMap (String × Option Nat)} (h : UsesOK E p u) : UsesIn s u := fun e he => by rw [(h e he).1]; exact ifSome_none

theorem gets_usesEntries : ∀ (l : List YNode) (m : OMap (String × Option Nat)), l.length % 2 = 0 → (∀ k v, Entry k v l → OnlyKind E (E.joinDir p v.value) .library) → UsesOK E p m →
    Gets (UsesOK E p) (usesEntries l m)
  | [], _, _, _, hm => hm
  | [_], _, h, _, _ => by simp at h
  | k :: v :: rest, m, h, hl, hm => by
    unfold usesEntries
    refine gets_usesEntries rest _ (even_tail h) (fun k v he => hl k v (.there he)) fun e he => ?_
    exact (Whole.mem_omap_set he).elim (hm e) fun e' => by rw [e']; exact ⟨rfl, hl _ _ .here⟩

section
variable (ho : Orderly E) {c : Calls} (hc : CallsOK K Bad c)

include hc

theorem runs_typeEntries {put : String → String → Addr → M St Unit} (hput : ∀ n a s, Fit K s → Runs K Bad none_ (put n p a) s fun _ _ => True) :
    ∀ (l : List YNode) (m : OMap Addr) (s : St), Fit K s → (∀ u ∈ l, Shaped u) → l.length % 2 = 0 → (∀ k v, Entry k v l → TypeNode E p v) → (∀ e ∈ m, IsBase s e.2) →
    Runs K Bad none_ (typeEntries c put p l m) s fun m' s' => ∀ e ∈ m', IsBase s' e.2
  | [], m, s, hw, _, _, _, hm => Runs.ret hw hm
  | [_], _, _, _, _, h, _, _ => by simp at h
  | k :: v :: rest, m, s, hw, hl, h, ht, hm => by
    unfold typeEntries
    refine Runs.bind (hc.shape v k.value p s hw (hl v (by simp)) (ht _ _ .here)) fun a s1 hw1 g1 ha => ?_
    refine Runs.bind (hput k.value a s1 hw1) fun _ s2 hw2 g2 _ => ?_
    refine runs_typeEntries hput rest _ s2 hw2 (fun u hu => hl u (by simp [hu])) (even_tail h) (fun k v he => ht k v (.there he)) fun e he => ?_
    exact (Whole.mem_omap_set he).elim (fun he => (g1.trans g2).grown.isBase (hm e he)) fun e' => by rw [e']; exact g2.grown.isBase ha

/-- A library while it is read. -/
structure LibRead (E : Env) (s : St) (p : String) (l : Lib) : Prop where
  types : ∀ e ∈ l.types, IsBase s e.2
  annotationTypes : ∀ e ∈ l.annotationTypes, IsBase s e.2
  uses : UsesOK E p l.uses
  location : l.location = p

omit hc in
theorem LibRead.grow {s' : St} {l : Lib} (h : LibRead E s p l) (g : Grown s s') : LibRead E s' p l :=
  ⟨fun e he => g.isBase (h.types e he), fun e he => g.isBase (h.annotationTypes e he), h.uses, h.location⟩

include ho

theorem runs_libraryEntry {k v : YNode} {l : Lib} (hw : Fit K s) (hv : Shaped v) (hl : LibRead E s p l)
    (ht : k.value = "types" ∨ k.value = "annotationTypes" → ∀ k' v', Entry k' v' v.content → TypeNode E p v')
    (hu : k.value = "uses" → ∀ k' v', Entry k' v' v.content → OnlyKind E (E.joinDir p v'.value) .library) :
    Runs K Bad none_ (libraryEntry E c k v l) s fun l' s' => LibRead E s' p l' := by
  unfold libraryEntry
  split
  · rename_i hk
    refine Runs.bind (Q := fun m s' => s' = s ∧ UsesOK E p m) ?_ fun m s1 hw1 _ ⟨e, hm⟩ => ?_
    · unfold sectionOf
      split
      · exact Runs.ret hw ⟨rfl, hl.uses⟩
      split
      · exact Runs.err hw
      · rename_i hmap
        exact Runs.gets hw (gets_usesEntries v.content [] (shaped_even hv (Decidable.not_not.1 hmap)) (hu hk) usesOK_nil) fun _ h => ⟨rfl, h⟩
    · subst e
      exact Runs.ret hw1 ⟨hl.types, hl.annotationTypes, hm, hl.location⟩
  split
  · rename_i hk
    refine Runs.bind (Q := fun m s' => ∀ e ∈ m, IsBase s' e.2) ?_ fun m s1 hw1 g1 hm => ?_
    · unfold sectionOf
      split
      · exact Runs.ret hw hl.types
      split
      · exact Runs.err hw
      · rename_i hmap
        simp only [hl.location]
        exact runs_typeEntries hc (fun n a s hw => Runs.putType hw) v.content [] s hw (fun u hu => shaped_content hv hu) (shaped_even hv (Decidable.not_not.1 hmap)) (ht (.inl hk)) (by simp)
    · have := hl.grow g1.grown
      exact Runs.ret hw1 ⟨hm, this.annotationTypes, this.uses, this.location⟩
  split
  · rename_i hk
    refine Runs.bind (Q := fun m s' => ∀ e ∈ m, IsBase s' e.2) ?_ fun m s1 hw1 g1 hm => ?_
    · unfold sectionOf
      split
      · exact Runs.ret hw hl.annotationTypes
      split
      · exact Runs.err hw
      · rename_i hmap
        simp only [hl.location]
        exact runs_typeEntries hc (fun n a s hw => Runs.putAnnotationType hw) v.content [] s hw (fun u hu => shaped_content hv hu) (shaped_even hv (Decidable.not_not.1 hmap)) (ht (.inr hk)) (by simp)
    · have := hl.grow g1.grown
      exact Runs.ret hw1 ⟨this.types, hm, this.uses, this.location⟩
  split
  · refine Runs.bind (Runs.gets (Q := fun _ s' => s' = s) hw calm_orErr fun _ _ => rfl) fun _ s1 hw1 _ e => ?_
    subst e
    exact Runs.ret hw1 hl
  split
  · rename_i hk
    exact Runs.bind (runs_extension ho.yaml hw hk hv) fun _ s1 hw1 g1 _ => Runs.ret hw1 (hl.grow g1.grown)
  · exact Runs.ret hw hl

theorem runs_libraryEntries : ∀ (l : List YNode) (li : Lib) (s : St), Fit K s → (∀ u ∈ l, Shaped u) → l.length % 2 = 0 → LibRead E s p li →
    (∀ k v k' v', Entry k v l → k.value = "types" ∨ k.value = "annotationTypes" → Entry k' v' v.content → TypeNode E p v') →
    (∀ k v k' v', Entry k v l → k.value = "uses" → Entry k' v' v.content → OnlyKind E (E.joinDir p v'.value) .library) →
    Runs K Bad none_ (libraryEntries E c l li) s fun l' s' => LibRead E s' p l'
  | [], li, s, hw, _, _, hl, _, _ => Runs.ret hw hl
  | [_], _, _, _, _, h, _, _, _ => by simp at h
  | k :: v :: rest, li, s, hw, hs, h, hl, ht, hu => by
    unfold libraryEntries
    refine Runs.bind (runs_libraryEntry ho hc hw (hs v (by simp)) hl (fun hk k' v' => ht k v k' v' .here hk) fun hk k' v' => hu k v k' v' .here hk) fun l' s1 hw1 _ hl1 => ?_
    exact runs_libraryEntries rest l' s1 hw1 (fun u hu => hs u (by simp [hu])) (even_tail h) hl1 (fun k v k' v' he => ht k v k' v' (.there he)) fun k v k' v' he => hu k v k' v' (.there he)

omit ho in
theorem runs_linkUses {i : Nat} : ∀ (u : List (String × String × Option Nat)) (s : St), Fit K s → (∀ e ∈ u, OnlyKind E (E.joinDir p e.2.1) .library) →
    Runs K Bad none_ (linkUses E c i p u) s fun _ _ => True
  | [], s, hw, _ => Runs.ret hw trivial
  | (key, value, l) :: rest, s, hw, hu => by
    unfold linkUses
    refine Runs.bind (Tame.attempt (hc.lib _ s hw (hu (key, value, l) (by simp)))) fun r s1 hw1 _ hr => ?_
    cases r with
    | ok j => exact Runs.bind (Runs.linkLib hw1 (ifSome_some (hr j rfl))) fun _ s2 hw2 _ _ => runs_linkUses rest s2 hw2 fun e he => hu e (by simp [he])
    | error _ =>
      refine Runs.bind (Runs.linkLib hw1 ifSome_none) fun _ s2 hw2 _ _ => ?_
      exact Runs.bind (runs_linkUses rest s2 hw2 fun e he => hu e (by simp [he])) fun _ s3 hw3 _ _ => Runs.ret hw3 trivial

omit ho in
theorem runs_linkDataTypeUses {i : Nat} : ∀ (u : List (String × String × Option Nat)) (s : St), Fit K s → (∀ e ∈ u, OnlyKind E (E.joinDir p e.2.1) .library) →
    Runs K Bad none_ (linkDataTypeUses E c i p u) s fun _ _ => True
  | [], s, hw, _ => Runs.ret hw trivial
  | (key, value, l) :: rest, s, hw, hu => by
    unfold linkDataTypeUses
    refine Runs.bind (hc.lib _ s hw (hu (key, value, l) (by simp))) fun j s1 hw1 _ hj => ?_
    exact Runs.bind (Runs.linkDT hw1 (ifSome_some hj)) fun _ s2 hw2 _ _ => runs_linkDataTypeUses rest s2 hw2 fun e he => hu e (by simp [he])

theorem runs_decodeLibrary {text : String} (hw : Fit K s) (hf : E.file p = some text) (hk : OfKind E p .library) :
    Runs K Bad none_ (decodeLibrary E c text p) s fun i s' => i < s'.libs.length := by
  unfold decodeLibrary
  refine Runs.bind (Q := fun l s' => LibRead E s' p l) (runs_decodeFragment ho.yaml hw (fun d hd => ho.notNull p _ d hk ⟨text, hf, hd⟩) fun d hd hs hm => ?_) fun l s1 hw1 _ hl => ?_
  · have hn := ho.library p d hk ⟨text, hf, hd⟩
    exact runs_libraryEntries ho hc _ { location := p } s hw (fun u hu => shaped_content hs hu) (shaped_even hs hm) ⟨by simp, by simp, usesOK_nil, rfl⟩ hn.types
      fun k v k' v' h1 h2 h3 => hn.uses _ ⟨k, v, k', v', h1, h2, h3, rfl⟩
  refine Runs.bind (Runs.newLib hw1 ⟨hl.types, hl.annotationTypes, hl.uses.uses⟩) fun i s2 hw2 _ hi => ?_
  refine Runs.bind (Runs.putFragment hw2 (f := .library i) hi hk) fun _ s3 hw3 g3 _ => ?_
  refine Runs.bind (runs_linkUses hc _ s3 hw3 fun e he => (hl.uses e he).2) fun good s4 hw4 g4 _ => ?_
  split
  · exact Runs.ret hw4 (Nat.lt_of_lt_of_le hi (g3.trans g4).grown.longer.libs)
  · exact Runs.err hw4

theorem runs_parseLibrary (hw : Fit K s) (hk : OnlyKind E p .library) : Runs K Bad none_ (parseLibrary E c p) s fun i s' => i < s'.libs.length := by
  cases hg : getFragment s p with
  | some x =>
    have hx := hw.frags _ (Whole.mem_get hg)
    cases x with
    | library i => exact Tame.congr (m := M.ret i) (by simp [parseLibrary, hg, M.ret]) (Runs.ret hw hx.1)
    | namedExample i => exact absurd (hk _ hx.2) (by simp [refKind])
    | dataType i => exact absurd (hk _ hx.2) (by simp [refKind])
  | none =>
    cases hf : E.file p with
    | none => exact Tame.congr (m := M.err "open fragment file") (by simp [parseLibrary, hg, hf, M.err]) (Runs.err hw)
    | some text =>
      refine Tame.congr (m := M.bind (M.lift (checkFragmentKind p text .library)) fun _ => decodeLibrary E c text p) (by simp [parseLibrary, hg, hf]) ?_
      refine Runs.bind (Q := fun _ s' => s' = s ∧ OfKind E p .library) (Runs.lift hw (calm_check).ne fun _ h => ⟨rfl, ofKind_of_check hf h⟩) fun _ s1 hw1 _ ⟨e1, hok⟩ => ?_
      subst e1
      exact runs_decodeLibrary ho hc hw1 hf hok

/-! ## Data types -/

omit ho hc in
theorem DeclOK.append {loc : String} {fs : List YNode} {k v : YNode} {l : List YNode} (hf : DeclOK E loc fs) (he : fs.length % 2 = 0) (h : DeclOK E loc (k :: v :: l)) : DeclOK E loc (fs ++ [k, v]) := by
  have hcase : ∀ {k' u'}, Entry k' u' (fs ++ [k, v]) → Entry k' u' fs ∨ Entry k' u' (k :: v :: l) := by
    intro k' u' h'
    rcases entry_append he h' with h' | h'
    · exact .inl h'
    · cases h' with
      | here => exact .inr .here
      | there h' => cases h'
  refine ⟨fun u hu => ?_, fun k' u' h' => (hcase h').elim (hf.type k' u') (h.type k' u'), fun k' u' k'' u'' h' => (hcase h').elim (hf.inner k' u' k'' u'') (h.inner k' u' k'' u''),
    fun k' u' h' => (hcase h').elim (hf.pairs k' u') (h.pairs k' u'), fun k' u' h' => (hcase h').elim (hf.examples k' u') (h.examples k' u')⟩
  rcases List.mem_append.1 hu with hu | hu
  · exact hf.shaped u hu
  · refine h.shaped u ?_
    simp only [List.mem_cons, List.not_mem_nil, or_false] at hu
    rcases hu with rfl | rfl <;> simp

omit ho hc in
theorem gets_dataTypeEntries : ∀ (l : List YNode) (u : OMap (String × Option Nat)) (fs : List YNode), DeclOK E p l → l.length % 2 = 0 →
    (∀ k v, Entry k v l → k.value = "uses" → v.content.length % 2 = 0) → (∀ k v k' v', Entry k v l → k.value = "uses" → Entry k' v' v.content → OnlyKind E (E.joinDir p v'.value) .library) →
    UsesOK E p u → DeclOK E p fs → fs.length % 2 = 0 → Gets (fun r => UsesOK E p r.1 ∧ DeclOK E p r.2 ∧ r.2.length % 2 = 0) (dataTypeEntries l u fs)
  | [], u, fs, _, _, _, _, h1, h2, h3 => ⟨h1, h2, h3⟩
  | [_], _, _, _, h, _, _, _, _, _ => by simp at h
  | k :: v :: rest, u, fs, hd, h, hp, hu, h1, h2, h3 => by
    have hrest : ∀ u fs, UsesOK E p u → DeclOK E p fs → fs.length % 2 = 0 → Gets (fun r => UsesOK E p r.1 ∧ DeclOK E p r.2 ∧ r.2.length % 2 = 0) (dataTypeEntries rest u fs) :=
      fun u fs => gets_dataTypeEntries rest u fs hd.tail (even_tail h) (fun k v he => hp k v (.there he)) fun k v k' v' he => hu k v k' v' (.there he)
    unfold dataTypeEntries
    refine Gets.ite (fun _ => hrest u fs h1 h2 h3) fun _ => Gets.ite (fun hk => Gets.ite (fun _ => hrest u fs h1 h2 h3) fun _ => ?_) fun _ => ?_
    · exact Gets.bind (gets_usesEntries v.content [] (hp _ _ .here hk) (hu _ _ · · .here hk) usesOK_nil) fun m hm => hrest m fs hm h2 h3
    · exact hrest u _ h1 (h2.append h3 hd) (by simp; omega)

omit ho in
theorem runs_unmarshalDataType {n : YNode} (hw : Fit K s) (hn : DeclOK E p n.content) (he : n.content.length % 2 = 0)
    (hp : ∀ k v, Entry k v n.content → k.value = "uses" → v.content.length % 2 = 0)
    (hu : ∀ k v k' v', Entry k v n.content → k.value = "uses" → Entry k' v' v.content → OnlyKind E (E.joinDir p v'.value) .library) :
    Runs K Bad none_ (unmarshalDataType E c p n) s fun d s' => (∃ a, d.shape = some a ∧ IsBase s' a) ∧ UsesOK E p d.uses := by
  unfold unmarshalDataType
  refine Runs.bind (Runs.gets (Q := fun r s' => s' = s ∧ UsesOK E p r.1 ∧ DeclOK E p r.2 ∧ r.2.length % 2 = 0) hw
    (gets_dataTypeEntries n.content [] [] hn he hp hu usesOK_nil ⟨fun _ h => (by simp at h), fun _ _ h => (by cases h), fun _ _ _ _ h => (by cases h), fun _ _ h => (by cases h), fun _ _ h => (by cases h)⟩ rfl)
    fun _ h => ⟨rfl, h⟩) fun r s1 hw1 _ ⟨e, h1, h2, h3⟩ => ?_
  subst e
  refine Runs.bind (hc.shape _ _ _ s1 hw1 (shaped_mk (fun _ => h3) (fun h => by cases h) h2.shaped) (.declaration rfl h2.type h2.inner h2.pairs h2.examples)) fun a s2 hw2 _ ha => ?_
  exact Runs.ret hw2 ⟨⟨a, rfl, ha⟩, h1⟩

omit ho hc in
theorem dtIn_of {d : DT} (h : (∃ a, d.shape = some a ∧ IsBase s a) ∧ UsesOK E p d.uses) : DTIn s d := by
  obtain ⟨⟨a, h1, h2⟩, h3⟩ := h
  exact ⟨⟨a, h1, h2⟩, h3.uses⟩

theorem runs_decodeDataType {text : String} (hw : Fit K s) (hf : E.file p = some text) (hk : OfKind E p .dataType) :
    Runs K Bad none_ (decodeDataType E c text p) s fun i s' => i < s'.dts.length := by
  unfold decodeDataType
  split
  · rename_i hj
    have hstr : Shaped (YNode.str text) := shaped_mk (fun h => by cases h) (fun h => by cases h) fun u hu => by cases hu
    have hstr' : Shaped (YNode.str "type") := shaped_mk (fun h => by cases h) (fun h => by cases h) fun u hu => by cases hu
    have hent : ∀ {k v}, Entry k v (jsonDataTypeNode text).content → k = YNode.str "type" ∧ v = YNode.str text := by
      intro k v h
      cases h with
      | here => exact ⟨rfl, rfl⟩
      | there h => cases h
    have htype : TypeNode E p (YNode.str text) := .name rfl (fun _ h => ho.json p hj (by rw [hf]; exact congrArg some h)) fun h => by simp [YNode.str, YNode.tag] at h
    have hdecl : DeclOK E p (jsonDataTypeNode text).content := by
      refine ⟨fun u hu => ?_, fun k u h _ => ?_, fun k u k' u' h hkk => ?_, fun k u h hkk => ?_, fun k u h hkk => ?_⟩
      · simp only [jsonDataTypeNode, YNode.content, List.mem_cons, List.not_mem_nil, or_false] at hu
        rcases hu with rfl | rfl
        · exact hstr'
        · exact hstr
      · rw [(hent h).2]; exact htype
      all_goals
        rw [(hent h).1] at hkk
        simp [YNode.str, YNode.value] at hkk
    refine Runs.bind (runs_unmarshalDataType hc hw hdecl (by simp [jsonDataTypeNode, YNode.content]) (fun k v h hkk => ?_) fun k v k' v' h hkk => ?_) fun d s1 hw1 _ hd => ?_
    · rw [(hent h).1] at hkk; simp [YNode.str, YNode.value] at hkk
    · rw [(hent h).1] at hkk; simp [YNode.str, YNode.value] at hkk
    refine Runs.bind (Runs.newDT hw1 (dtIn_of hd)) fun i s2 hw2 _ hi => ?_
    exact Runs.bind (Runs.putFragment hw2 (f := .dataType i) hi hk) fun _ s3 hw3 g3 _ => Runs.ret hw3 (Nat.lt_of_lt_of_le hi g3.grown.longer.dts)
  · rename_i hj
    refine Runs.bind (Q := fun d s' => (∃ a, d.shape = some a ∧ IsBase s' a) ∧ UsesOK E p d.uses) (runs_decodeFragment ho.yaml hw (fun d hd => ho.notNull p _ d hk ⟨text, hf, hd⟩) fun d hd hs hm => ?_) fun d s1 hw1 _ hd => ?_
    · have hn := ho.dataType p d hk hj ⟨text, hf, hd⟩
      exact runs_unmarshalDataType hc hw (typeNode_mapping hs hn.type hm) (shaped_even hs hm) hn.pairs fun k v k' v' h1 h2 h3 => hn.uses _ ⟨k, v, k', v', h1, h2, h3, rfl⟩
    refine Runs.bind (Runs.newDT hw1 (dtIn_of hd)) fun i s2 hw2 _ hi => ?_
    refine Runs.bind (Runs.putFragment hw2 (f := .dataType i) hi hk) fun _ s3 hw3 g3 _ => ?_
    exact Runs.bind (runs_linkDataTypeUses hc _ s3 hw3 fun e he => (hd.2 e he).2) fun _ s4 hw4 g4 _ => Runs.ret hw4 (Nat.lt_of_lt_of_le hi (g3.trans g4).grown.longer.dts)

theorem runs_parseDataType (hw : Fit K s) (hk : OnlyKind E p .dataType) : Runs K Bad none_ (parseDataType E c p) s fun i s' => i < s'.dts.length := by
  cases hg : getFragment s p with
  | some x =>
    have hx := hw.frags _ (Whole.mem_get hg)
    cases x with
    | dataType i => exact Tame.congr (m := M.ret i) (by simp [parseDataType, hg, M.ret]) (Runs.ret hw hx.1)
    | namedExample i => exact absurd (hk _ hx.2) (by simp [refKind])
    | library i => exact absurd (hk _ hx.2) (by simp [refKind])
  | none =>
    cases hf : E.file p with
    | none => exact Tame.congr (m := M.err "open fragment file") (by simp [parseDataType, hg, hf, M.err]) (Runs.err hw)
    | some text =>
      refine Tame.congr (m := M.bind (M.lift (checkFragmentKind p text .dataType)) fun _ => decodeDataType E c text p) (by simp [parseDataType, hg, hf]) ?_
      refine Runs.bind (Q := fun _ s' => s' = s ∧ OfKind E p .dataType) (Runs.lift hw (calm_check).ne fun _ h => ⟨rfl, ofKind_of_check hf h⟩) fun _ s1 hw1 _ ⟨e1, hok⟩ => ?_
      subst e1
      exact runs_decodeDataType ho hc hw1 hf hok

end

theorem callsOK (ho : Orderly E) : ∀ n, CallsOK K Bad (calls E n)
  | 0 => ⟨fun _ _ _ _ hw _ _ => Runs.diverge hw, fun _ _ hw _ => Runs.diverge hw, fun _ _ hw _ => Runs.diverge hw⟩
  | n + 1 => ⟨fun _ _ _ _ hw hv ht => runs_makeNewShapeYAML ho (callsOK ho n) hw hv ht, fun _ _ hw hk => runs_parseDataType ho (callsOK ho n) hw hk,
      fun _ _ hw hk => runs_parseLibrary ho (callsOK ho n) hw hk⟩

end GoRaml.Tame
