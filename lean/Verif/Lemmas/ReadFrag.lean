import Verif.Lemmas.ReadShape

/-!
# Decoding fidelity: libraries and data types
-/

namespace GoRaml.Read

open GoRaml GoRaml.Spec GoRaml.Load

/-! ## The libraries a fragment uses -/

/-- Names and paths, without the links. -/
abbrev paths (m : OMap (String × Option Nat)) : OMap String := m.map fun x => (x.1, x.2.1)

theorem paths_set (k v : String) (j : Option Nat) : ∀ m, paths (OMap.set m k (v, j)) = OMap.set (paths m) k v
  | [] => rfl
  | (k', v') :: m => by
    have ih := paths_set k v j m
    simp only [OMap.set, paths, List.map_cons] at ih ⊢
    by_cases h : k' = k
    · rw [if_pos h, if_pos h]; rfl
    · rw [if_neg h, if_neg h, List.map_cons, ih]

theorem set_same {α : Type} {k : String} {v : α} : ∀ {m : OMap α}, OMap.get m k = some v → OMap.set m k v = m
  | [], h => by cases h
  | (k', v') :: m, h => by
    simp only [OMap.get] at h
    simp only [OMap.set]
    by_cases hk : k' = k
    · rw [if_pos hk] at h ⊢; cases h; rw [hk]
    · rw [if_neg hk] at h ⊢; rw [set_same h]

theorem usesEntries_reads : ∀ (l : List YNode) {m m' : OMap (String × Option Nat)} {done : List (String × String)}, paths m = filled done →
    usesEntries l m = .ok m' → paths m' = filled (done ++ (entriesOf l).map fun e => (e.1, e.2.value))
  | [], m, m', done, hm, h => by cases h; simpa [entriesOf] using hm
  | [_], m, m', done, hm, h => by cases h
  | k :: v :: rest, m, m', done, hm, h => by
    have := usesEntries_reads (done := done ++ [(k.value, v.value)]) rest (by rw [paths_set, filled_snoc, hm]) h
    simpa [entriesOf_pair] using this

theorem nodup_filled {α : Type} (l : List (String × α)) : ((filled l).map (·.1)).Nodup := nodup_fill l [] (by simp)

theorem usesRead_nodup {es : List (String × YNode)} {m : OMap (String × Option Nat)} (h : UsesRead es m) : ((paths m).map (·.1)).Nodup := by
  unfold UsesRead Reads at h
  split at h
  · rw [show paths m = _ from h]; simp
  · rw [show paths m = _ from h]; exact nodup_filled _

theorem usesRead_get {es : List (String × YNode)} {m : OMap (String × Option Nat)} (h : UsesRead es m) :
    ∀ e ∈ m, OMap.get (paths m) e.1 = some e.2.1 := fun e he =>
  (OMap.mem_iff_get (usesRead_nodup h) _ _).1 (List.mem_map.2 ⟨e, he, rfl⟩)

/-! ## Entries with a null value are skipped -/

/-- The entries that count in a fragment. -/
abbrev counted (es : List (String × YNode)) : List (String × YNode) := es.filter fun e => e.2.tag ≠ "!!null"

theorem counted_null {es : List (String × YNode)} {k : String} {v : YNode} (h : v.tag = "!!null") : counted (es ++ [(k, v)]) = counted es := by
  simp [counted, List.filter_append, h]

theorem counted_some {es : List (String × YNode)} {k : String} {v : YNode} (h : v.tag ≠ "!!null") : counted (es ++ [(k, v)]) = counted es ++ [(k, v)] := by
  simp [counted, List.filter_append, h]

theorem counted_skip {α : Type} {k k' : String} {es : List (String × YNode)} {d x : α} {read : YNode → α → Prop} {v : YNode} (hk : k' ≠ k)
    (h : Reads k (counted es) d read x) : Reads k (counted (es ++ [(k', v)])) d read x := by
  by_cases hn : v.tag = "!!null"
  · rw [counted_null hn]; exact h
  · rw [counted_some hn]; exact reads_there hk h

section
variable {E : Env} {c : Calls} {rg rg' : Region} {s s1 s2 s' : St} {a : Addr} {name loc : String}

/-! ## The declarations in a section -/

/-- Storing a type in a table of the store. -/
def Quiet (put : String → String → Addr → M St Unit) : Prop :=
  ∀ {E : Env} {s s' : St} {n l : String} {a : Addr}, Tied E s → put n l a s = (.ok (), s') → Call E s s'

theorem quiet_putType : Quiet Heap.putType := fun h hr => by
  unfold Heap.putType at hr; cases hr
  exact .quiet h (h.same rfl rfl rfl (List.prefix_refl _) rfl)
    (chg_other rfl rfl rfl rfl (List.prefix_refl _) (List.prefix_refl _) (List.prefix_refl _) (List.prefix_refl _) (List.prefix_refl _) fun _ _ h => h) rfl rfl

theorem quiet_putAnnotationType : Quiet Heap.putAnnotationType := fun h hr => by
  unfold Heap.putAnnotationType at hr; cases hr
  exact .quiet h (h.same rfl rfl rfl (List.prefix_refl _) rfl)
    (chg_other rfl rfl rfl rfl (List.prefix_refl _) (List.prefix_refl _) (List.prefix_refl _) (List.prefix_refl _) (List.prefix_refl _) fun _ _ h => h) rfl rfl

theorem Call.keepD {v : YNode} {n : String} (h : Call E s s1) (h' : Call E s1 s') (hd : D E False (between s s1) s1 loc v n a) :
    D E False (between s s') s' loc v n a :=
  (hd.chg h'.chg (Nat.le_of_eq h.tied.len.symm) Region.apart_none).mono id (Chg.le_between .rfl h'.chg)

theorem typeEntries_reads (hg : Good E c) {put : String → String → Addr → M St Unit} (hp : Quiet put) (h0 : Tied E s) : ∀ (l : List YNode) {m m' : OMap Addr}
    {es : List (String × YNode)} {s1 s' : St}, Call E s s1 → Lists (fun e x => x.1 = e.1 ∧ D E False (between s s1) s1 loc e.2 e.1 x.2) es m →
    typeEntries c put loc l m s1 = (.ok m', s') →
    Call E s s' ∧ Lists (fun e x => x.1 = e.1 ∧ D E False (between s s') s' loc e.2 e.1 x.2) (es ++ entriesOf l) m'
  | [], m, m', es, s1, s', h, hm, hr => by
    obtain ⟨rfl, rfl⟩ := M.ret_ok.1 hr
    exact ⟨h, by simpa [entriesOf] using hm⟩
  | [_], m, m', es, s1, s', h, hm, hr => by cases hr
  | k :: v :: rest, m, m', es, s1, s', h, hm, hr => by
    unfold typeEntries at hr
    obtain ⟨a, s2, r1, r2⟩ := M.bind_ok.1 hr
    obtain ⟨h1, hd⟩ := hg.shape h.tied r1
    obtain ⟨_, s3, r3, r4⟩ := M.bind_ok.1 r2
    have h2 := hp h1.tied r3
    have hc := (h.trans h0 h1)
    have hd2 := hc.keepD h2 (hd.mono id h.chg.between_le)
    have := typeEntries_reads hg hp h0 rest (hc.trans h0 h2)
      (Lists.snoc (Lists.mono hm fun e x hx => ⟨hx.1, hc.keepD h2 (h.keepD h1 hx.2)⟩) (e := (k.value, v)) (k := k.value) ⟨rfl, hd2⟩) r4
    simpa [entriesOf_pair] using this

/-- The library so far. -/
structure LibSoFar (E : Env) (s s1 : St) (path : String) (es : List (String × YNode)) (l : Lib) : Prop where
  call : Call E s s1
  location : l.location = path
  types : SectionReads (D E False (between s s1) s1 path) "types" es l.types
  annotationTypes : SectionReads (D E False (between s s1) s1 path) "annotationTypes" es l.annotationTypes
  uses : UsesRead es l.uses

theorem SectionReads.mono {R R' : YNode → String → Addr → Prop} (hR : ∀ v n a, R v n a → R' v n a) {key : String} {es : List (String × YNode)} {m : OMap Addr}
    (h : SectionReads R key es m) : SectionReads R' key es m :=
  Reads.mono h fun _ _ hm => Lists.mono hm fun _ _ hx => ⟨hx.1, hR _ _ _ hx.2⟩

theorem LibSoFar.later {path : String} {es : List (String × YNode)} {l : Lib} (h : LibSoFar E s s1 path es l) (h0 : Tied E s) (hc : Call E s1 s2) :
    LibSoFar E s s2 path es l :=
  ⟨h.call.trans h0 hc, h.location, SectionReads.mono (fun _ _ _ hd => h.call.keepD hc hd) h.types,
    SectionReads.mono (fun _ _ _ hd => h.call.keepD hc hd) h.annotationTypes, h.uses⟩

theorem section_here {R : YNode → String → Addr → Prop} {key : String} {es : List (String × YNode)} {m : OMap Addr} {v : YNode} (hv : v.tag ≠ "!!null")
    (h : Lists (fun e x => x.1 = e.1 ∧ R e.2 e.1 x.2) (entriesOf v.content) m) : SectionReads R key (es ++ [(key, v)]) m := by
  unfold SectionReads
  rw [show (es ++ [(key, v)]).filter (fun e => e.2.tag ≠ "!!null") = counted es ++ [(key, v)] from counted_some hv]
  exact reads_here h

theorem LibSoFar.skip {path : String} {es : List (String × YNode)} {l : Lib} {k : String} {v : YNode} (h : LibSoFar E s s1 path es l)
    (hk : (k ≠ "types" ∧ k ≠ "annotationTypes" ∧ k ≠ "uses") ∨ v.tag = "!!null") : LibSoFar E s s1 path (es ++ [(k, v)]) l := by
  rcases hk with ⟨h1, h2, h3⟩ | hk
  · exact ⟨h.call, h.location, counted_skip h1 h.types, counted_skip h2 h.annotationTypes, counted_skip h3 h.uses⟩
  · refine ⟨h.call, h.location, ?_, ?_, ?_⟩
    · have := h.types; unfold SectionReads at this ⊢; rwa [show (es ++ [(k, v)]).filter _ = _ from counted_null hk]
    · have := h.annotationTypes; unfold SectionReads at this ⊢; rwa [show (es ++ [(k, v)]).filter _ = _ from counted_null hk]
    · have := h.uses; unfold UsesRead at this ⊢; rwa [show (es ++ [(k, v)]).filter _ = _ from counted_null hk]

theorem uses_here {es : List (String × YNode)} {m : OMap (String × Option Nat)} {v : YNode} (hv : v.tag ≠ "!!null") (h : usesEntries v.content [] = .ok m) :
    UsesRead (es ++ [("uses", v)]) m := by
  unfold UsesRead
  rw [show (es ++ [("uses", v)]).filter (fun e => e.2.tag ≠ "!!null") = counted es ++ [("uses", v)] from counted_some hv]
  refine reads_here ?_
  have := usesEntries_reads v.content (m := []) (done := []) rfl h
  simpa using this

theorem section_ok {α : Type} {v : YNode} {old m : α} {read : List YNode → M St α} (h : sectionOf v old read s = (.ok m, s')) :
    (v.tag = "!!null" ∧ m = old ∧ s' = s) ∨ (v.tag ≠ "!!null" ∧ read v.content s = (.ok m, s')) := by
  unfold sectionOf at h
  split at h
  · rename_i hv
    obtain ⟨rfl, rfl⟩ := M.ret_ok.1 h
    exact .inl ⟨hv, rfl, rfl⟩
  split at h
  · cases h
  · rename_i hv _; exact .inr ⟨hv, h⟩

theorem libraryEntry_reads (hg : Good E c) (h0 : Tied E s) {path : String} {es : List (String × YNode)} {l l' : Lib} {k v : YNode}
    (h : LibSoFar E s s1 path es l) (hr : libraryEntry E c k v l s1 = (.ok l', s')) : LibSoFar E s s' path (es ++ [(k.value, v)]) l' := by
  unfold libraryEntry at hr
  by_cases hk1 : k.value = "uses"
  · rw [if_pos hk1] at hr
    obtain ⟨m, s2, r1, r2⟩ := M.bind_ok.1 hr
    obtain ⟨rfl, rfl⟩ := M.ret_ok.1 r2
    rcases section_ok r1 with ⟨hv, rfl, rfl⟩ | ⟨hv, r3⟩
    · exact h.skip (.inr hv)
    · obtain ⟨r4, rfl⟩ := M.lift_ok.1 r3
      rw [hk1]
      exact ⟨h.call, h.location, counted_skip (by decide) h.types, counted_skip (by decide) h.annotationTypes, uses_here hv r4⟩
  rw [if_neg hk1] at hr
  by_cases hk2 : k.value = "types"
  · rw [if_pos hk2] at hr
    obtain ⟨m, s2, r1, r2⟩ := M.bind_ok.1 hr
    obtain ⟨rfl, rfl⟩ := M.ret_ok.1 r2
    rcases section_ok r1 with ⟨hv, rfl, rfl⟩ | ⟨hv, r3⟩
    · exact h.skip (.inr hv)
    · obtain ⟨h1, h2⟩ := typeEntries_reads hg quiet_putType h.call.tied v.content (.refl h.call.tied) lists_nil r3
      rw [h.location, List.nil_append] at h2
      have h3 := h.later h0 h1
      rw [hk2]
      exact ⟨h3.call, h3.location, section_here hv (Lists.mono h2 fun e x hx => ⟨hx.1, hx.2.mono id h.call.chg.between_le⟩),
        counted_skip (by decide) h3.annotationTypes, counted_skip (by decide) h3.uses⟩
  rw [if_neg hk2] at hr
  by_cases hk3 : k.value = "annotationTypes"
  · rw [if_pos hk3] at hr
    obtain ⟨m, s2, r1, r2⟩ := M.bind_ok.1 hr
    obtain ⟨rfl, rfl⟩ := M.ret_ok.1 r2
    rcases section_ok r1 with ⟨hv, rfl, rfl⟩ | ⟨hv, r3⟩
    · exact h.skip (.inr hv)
    · obtain ⟨h1, h2⟩ := typeEntries_reads hg quiet_putAnnotationType h.call.tied v.content (.refl h.call.tied) lists_nil r3
      rw [h.location, List.nil_append] at h2
      have h3 := h.later h0 h1
      rw [hk3]
      exact ⟨h3.call, h3.location, counted_skip (by decide) h3.types,
        section_here hv (Lists.mono h2 fun e x hx => ⟨hx.1, hx.2.mono id h.call.chg.between_le⟩), counted_skip (by decide) h3.uses⟩
  rw [if_neg hk3] at hr
  have hother : k.value ≠ "types" ∧ k.value ≠ "annotationTypes" ∧ k.value ≠ "uses" := ⟨hk2, hk3, hk1⟩
  by_cases hk4 : k.value = "usage"
  · rw [if_pos hk4] at hr
    obtain ⟨u, s2, r1, r2⟩ := M.bind_ok.1 hr
    obtain ⟨_, rfl⟩ := M.lift_ok.1 r1
    obtain ⟨rfl, rfl⟩ := M.ret_ok.1 r2
    exact h.skip (.inl hother)
  rw [if_neg hk4] at hr
  by_cases hk5 : isCustomDomainExtensionNode k.value = true
  · rw [if_pos hk5] at hr
    obtain ⟨u, s2, r1, r2⟩ := M.bind_ok.1 hr
    obtain ⟨rfl, rfl⟩ := M.ret_ok.1 r2
    have he := (extension_reads (by rw [annotationKey_eq]; exact hk5) r1).1
    exact (h.later h0 (he.call h.call.tied)).skip (.inl hother)
  · rw [if_neg hk5] at hr
    obtain ⟨rfl, rfl⟩ := M.ret_ok.1 hr
    exact h.skip (.inl hother)

theorem libraryEntries_reads (hg : Good E c) (h0 : Tied E s) {path : String} : ∀ (n : List YNode) {es : List (String × YNode)} {l l' : Lib} {s1 s' : St},
    LibSoFar E s s1 path es l → libraryEntries E c n l s1 = (.ok l', s') → LibSoFar E s s' path (es ++ entriesOf n) l'
  | [], es, l, l', s1, s', h, hr => by
    obtain ⟨rfl, rfl⟩ := M.ret_ok.1 hr
    simpa [entriesOf] using h
  | [_], es, l, l', s1, s', h, hr => by cases hr
  | k :: v :: rest, es, l, l', s1, s', h, hr => by
    unfold libraryEntries at hr
    obtain ⟨l1, s2, r1, r2⟩ := M.bind_ok.1 hr
    have := libraryEntries_reads hg h0 rest (libraryEntry_reads hg h0 h r1) r2
    simpa [entriesOf_pair] using this

/-! ## Registering -/

theorem Call.put {path : String} {f : FragRef} {u : Unit} (h : Call E s s1) (hd : ∀ i, f = .dataType i → ∃ d, s1.dts[i]? = some d ∧ d.location = path)
    (hn : ∀ i, f ≠ .namedExample i) (hr : putFragment path f s1 = (.ok u, s')) : Call E s s' ∧ s'.libs = s1.libs ∧ s'.dts = s1.dts := by
  unfold putFragment at hr
  cases hg : OMap.get s1.fragments path with
  | some g => rw [hg] at hr; cases hr; exact ⟨h, rfl, rfl⟩
  | none =>
    rw [hg] at hr
    cases hr
    have hg' : getFragment s1 path = none := hg
    have hc : Chg .none s1 { s1 with fragments := OMap.set s1.fragments path f } := by
      refine chg_other rfl rfl rfl rfl (List.prefix_refl _) (List.prefix_refl _) (List.prefix_refl _) (List.prefix_refl _) (List.prefix_refl _) fun p g hp => ?_
      refine (getFragment_put (s := s1)).trans ?_
      rw [if_neg, hp]
      rintro rfl
      rw [hg'] at hp; cases hp
    refine ⟨⟨⟨h.tied.len, h.tied.own, h.tied.clear, fun p i hp => ?_, fun p i hp => ?_⟩, ?_, ?_⟩, rfl, rfl⟩
    · replace hp := (getFragment_put (s := s1)).symm.trans hp
      split at hp
      · rename_i e; cases hp; subst e; exact hd i rfl
      · exact h.tied.dts p i hp
    · replace hp := (getFragment_put (s := s1)).symm.trans hp
      split at hp
      · cases hp; exact absurd rfl (hn i)
      · exact h.tied.nes p i hp
    · exact ⟨h.chg.bases, h.chg.b, h.chg.fmaps, h.chg.fm, h.chg.pmaps, h.chg.p, h.chg.ppmaps, h.chg.q, h.chg.slices, h.chg.libs, h.chg.dts, h.chg.nes, h.chg.exts,
        fun p g hp => hc.frags p g (h.chg.frags p g hp)⟩
    · exact (h.new.later (hc.later (Nat.le_of_eq h.tied.len.symm) Region.apart_none) rfl rfl).mono id (Region.Le.rfl.or Region.none_le)

/-- A change of the links of new libraries and data types only. -/
theorem later_links (hb : s'.bases = s.bases) (hf : s'.fmaps = s.fmaps) (hp : s'.pmaps = s.pmaps) (hq : s'.ppmaps = s.ppmaps) (hs : s'.slices = s.slices)
    (he : s'.domainExts = s.domainExts)
    (hd : ∀ (i : Nat) d, s.dts[i]? = some d → ∃ d', s'.dts[i]? = some d' ∧ d'.location = d.location ∧ d'.shape = d.shape) : Later E False rg .none s s' where
  b := fun z b _ hz => .inl ⟨by unfold St.base at *; rw [hb]; exact hz, by rw [hf]⟩
  p := fun i m _ h => by rw [hp]; exact h
  q := fun i m _ h => by rw [hq]; exact h
  fmaps := by rw [hf]
  pmaps := by rw [hp]
  ppmaps := by rw [hq]
  slices := by rw [hs]
  exts := fun i de h => ⟨de, by rw [he]; exact h, rfl, rfl, rfl⟩
  dts := hd
  types := fun h => h.elim
  refs := fun h => h.elim

theorem LibraryReads.uses {R : String → YNode → String → Addr → Prop} {l : Lib} {u : OMap (String × Option Nat)} (h : LibraryReads E R l)
    (hu : paths u = paths l.uses) : LibraryReads E R { l with uses := u } := by
  obtain ⟨d, h1, h2, h3, h4⟩ := h
  refine ⟨d, h1, h2, h3, ?_⟩
  unfold UsesRead at h4 ⊢
  rw [show u.map (fun x => (x.1, x.2.1)) = paths l.uses from hu]
  exact h4

theorem DataTypeReads.uses {R : String → YNode → String → Addr → Prop} {l : DT} {u : OMap (String × Option Nat)} (h : DataTypeReads E R l)
    (hu : paths u = paths l.uses) : DataTypeReads E R { l with uses := u } := by
  obtain ⟨a, h1, h2⟩ := h
  refine ⟨a, h1, ?_⟩
  split at h2
  · rename_i hc
    rw [if_pos hc]
    obtain ⟨h2, h3⟩ := h2
    refine ⟨?_, h3⟩
    rw [h2] at hu
    exact List.map_eq_nil_iff.1 hu
  · rename_i hc
    rw [if_neg hc]
    obtain ⟨doc, h2, h3, h4⟩ := h2
    refine ⟨doc, h2, ?_, h4⟩
    unfold UsesRead at h3 ⊢
    rw [show u.map (fun x => (x.1, x.2.1)) = paths l.uses from hu]
    exact h3

theorem modify_prefix {α : Type} (f : α → α) : ∀ {l l' : List α} {i : Nat}, l <+: l' → l.length ≤ i → l <+: l'.modify i f
  | [], _, _, _, _ => List.nil_prefix
  | x :: l, [], _, h, _ => absurd h (by simp)
  | x :: l, y :: l', 0, _, hi => absurd hi (by simp)
  | x :: l, y :: l', i + 1, h, hi => by
    obtain ⟨rfl, h1⟩ := List.cons_prefix_cons.1 h
    rw [List.modify_succ_cons]
    exact List.cons_prefix_cons.2 ⟨rfl, modify_prefix f h1 (Nat.le_of_succ_le_succ hi)⟩

/-- Links into a new library. -/
theorem Call.linkLib (h : Call E s s1) {i : Nat} (hi : s.libs.length ≤ i) {key value : String} {j : Option Nat} {l : Lib} (hl : s1.libs[i]? = some l)
    (hv : OMap.get (paths l.uses) key = some value) {s' : St} (hr : Heap.linkLib i key value j s1 = (.ok (), s')) :
    Call E s s' ∧ ∃ l', s'.libs[i]? = some l' ∧ paths l'.uses = paths l.uses := by
  unfold Heap.linkLib at hr
  cases hr
  have hp : paths (OMap.set l.uses key (value, j)) = paths l.uses := by rw [paths_set, set_same hv]
  have hlat : ∀ rg, Later E False rg .none s1 { s1 with libs := s1.libs.modify i fun l => { l with uses := OMap.set l.uses key (value, j) } } := fun rg =>
    later_links rfl rfl rfl rfl rfl rfl fun _ d hd => ⟨d, hd, rfl, rfl⟩
  refine ⟨⟨h.tied.same rfl rfl rfl (List.prefix_refl _) rfl, ?_, ?_⟩, { l with uses := OMap.set l.uses key (value, j) }, by simp [hl], hp⟩
  · exact ⟨h.chg.bases, h.chg.b, h.chg.fmaps, h.chg.fm, h.chg.pmaps, h.chg.p, h.chg.ppmaps, h.chg.q, h.chg.slices, modify_prefix _ h.chg.libs hi, h.chg.dts, h.chg.nes,
      h.chg.exts, h.chg.frags⟩
  · refine ⟨fun k l1 hk hl1 => ?_, fun k d hk hd => ?_⟩
    · have key1 : ∃ l0, s1.libs[k]? = some l0 ∧ ∃ u, l1 = { l0 with uses := u } ∧ paths u = paths l0.uses := by
        by_cases hki : k = i
        · subst hki
          refine ⟨l, hl, _, ?_, hp⟩
          simp only [List.getElem?_modify_eq, hl] at hl1
          cases hl1; rfl
        · refine ⟨l1, ?_, l1.uses, rfl, rfl⟩
          exact (modify_ne hki).symm.trans hl1
      obtain ⟨l0, h1, u, rfl, h2⟩ := key1
      exact LibraryReads.uses (LibraryReads.mono (fun _ _ _ _ hd => (hd.later (hlat _)).mono id (Region.Le.rfl.or Region.none_le)) (h.new.libs k l0 hk h1)) h2
    · exact DataTypeReads.mono (fun _ _ _ _ hd => (hd.later (hlat _)).mono id (Region.Le.rfl.or Region.none_le)) (h.new.dts k d hk hd)

/-- Links into a new data type. -/
theorem Call.linkDT (h : Call E s s1) {i : Nat} (hi : s.dts.length ≤ i) {key value : String} {j : Option Nat} {l : DT} (hl : s1.dts[i]? = some l)
    (hv : OMap.get (paths l.uses) key = some value) {s' : St} (hr : Heap.linkDT i key value j s1 = (.ok (), s')) :
    Call E s s' ∧ ∃ l', s'.dts[i]? = some l' ∧ paths l'.uses = paths l.uses ∧ l'.location = l.location := by
  unfold Heap.linkDT at hr
  cases hr
  have hp : paths (OMap.set l.uses key (value, j)) = paths l.uses := by rw [paths_set, set_same hv]
  have hdts : ∀ (k : Nat) (d0 : DT), s1.dts[k]? = some d0 → ∃ d', (s1.dts.modify i fun l => { l with uses := OMap.set l.uses key (value, j) })[k]? = some d' ∧
      d'.location = d0.location ∧ d'.shape = d0.shape := by
    intro k d0 hd
    by_cases hki : k = i
    · subst hki
      rw [List.getElem?_modify_eq, hd]; exact ⟨_, rfl, rfl, rfl⟩
    · rw [modify_ne hki]; exact ⟨d0, hd, rfl, rfl⟩
  have hlat : ∀ rg, Later E False rg .none s1 { s1 with dts := s1.dts.modify i fun l => { l with uses := OMap.set l.uses key (value, j) } } := fun rg =>
    later_links rfl rfl rfl rfl rfl rfl hdts
  refine ⟨⟨⟨h.tied.len, h.tied.own, h.tied.clear, fun p k hk => ?_, h.tied.nes⟩, ?_, ?_⟩, { l with uses := OMap.set l.uses key (value, j) }, by simp [hl], hp, rfl⟩
  · obtain ⟨d, h1, h2⟩ := h.tied.dts p k hk
    obtain ⟨d', h3, h4, _⟩ := hdts k d h1
    exact ⟨d', h3, h4.trans h2⟩
  · exact ⟨h.chg.bases, h.chg.b, h.chg.fmaps, h.chg.fm, h.chg.pmaps, h.chg.p, h.chg.ppmaps, h.chg.q, h.chg.slices, h.chg.libs, modify_prefix _ h.chg.dts hi, h.chg.nes,
      h.chg.exts, h.chg.frags⟩
  · refine ⟨fun k d hk hd => ?_, fun k l1 hk hl1 => ?_⟩
    · exact LibraryReads.mono (fun _ _ _ _ hd => (hd.later (hlat _)).mono id (Region.Le.rfl.or Region.none_le)) (h.new.libs k d hk hd)
    · have key1 : ∃ l0, s1.dts[k]? = some l0 ∧ ∃ u, l1 = { l0 with uses := u } ∧ paths u = paths l0.uses := by
        by_cases hki : k = i
        · subst hki
          refine ⟨l, hl, _, ?_, hp⟩
          simp only [List.getElem?_modify_eq, hl] at hl1
          cases hl1; rfl
        · refine ⟨l1, ?_, l1.uses, rfl, rfl⟩
          exact (modify_ne hki).symm.trans hl1
      obtain ⟨l0, h1, u, rfl, h2⟩ := key1
      exact DataTypeReads.uses (DataTypeReads.mono (fun _ _ _ _ hd => (hd.later (hlat _)).mono id (Region.Le.rfl.or Region.none_le)) (h.new.dts k l0 hk h1)) h2

/-! ## Libraries -/

theorem attempt_ok {α : Type} {m : M St α} {r : Except String α} (h : M.attempt m s = (.ok r, s')) :
    (∃ x, r = .ok x ∧ m s = (.ok x, s')) ∨ ∃ e, r = .error e := by
  unfold M.attempt at h
  cases hm : m s with
  | mk o s1 =>
    rw [hm] at h
    cases o with
    | ok x => cases h; exact .inl ⟨x, rfl, rfl⟩
    | err e => cases h; exact .inr ⟨e, rfl⟩
    | panic e => cases h
    | diverge => cases h

theorem linkUses_reads (hg : Good E c) (h0 : Tied E s) {i : Nat} (hi : s.libs.length ≤ i) {path : String} {p : OMap String} :
    ∀ (us : List (String × String × Option Nat)) {s1 s' : St}, (∀ e ∈ us, OMap.get p e.1 = some e.2.1) → Call E s s1 →
    (∃ l, s1.libs[i]? = some l ∧ paths l.uses = p) → linkUses E c i path us s1 = (.ok true, s') → Call E s s'
  | [], s1, s', _, h, _, hr => by
    obtain ⟨_, rfl⟩ := M.ret_ok.1 hr
    exact h
  | (key, value, x) :: us, s1, s', hu, h, hl, hr => by
    unfold linkUses at hr
    obtain ⟨r, s2, r1, r2⟩ := M.bind_ok.1 hr
    rcases attempt_ok r1 with ⟨j, rfl, r3⟩ | ⟨e, rfl⟩
    · simp only at r2
      obtain ⟨_, s3, r4, r5⟩ := M.bind_ok.1 r2
      have hc := hg.lib h.tied r3
      obtain ⟨l, h1, h2⟩ := hl
      have h3 := prefix_get hc.chg.libs h1
      obtain ⟨h4, l', h5, h6⟩ := (h.trans h0 hc).linkLib hi h3 (by rw [h2]; exact hu (key, value, x) (by simp)) r4
      exact linkUses_reads hg h0 hi us (fun e he => hu e (by simp [he])) h4 ⟨l', h5, h6.trans h2⟩ r5
    · simp only at r2
      obtain ⟨_, s3, _, r5⟩ := M.bind_ok.1 r2
      obtain ⟨_, s4, _, r6⟩ := M.bind_ok.1 r5
      cases (M.ret_ok.1 r6).1

theorem decodeLibrary_reads (hg : Good E c) (h0 : Tied E s) {text path : String} {i : Nat} (hf : E.file path = some text)
    (hr : decodeLibrary E c text path s = (.ok i, s')) : Call E s s' := by
  unfold decodeLibrary at hr
  obtain ⟨l, s1, r1, r2⟩ := M.bind_ok.1 hr
  obtain ⟨d, hd1, hd2, r3⟩ := decodeFragment_ok r1
  have hl := libraryEntries_reads hg h0 (docRoot d).content (path := path) (es := [])
    (LibSoFar.mk (l := { location := path }) (.refl h0) rfl rfl rfl rfl) r3
  rw [List.nil_append] at hl
  obtain ⟨j, s2, r4, r5⟩ := M.bind_ok.1 r2
  unfold Heap.newLib at r4
  cases r4
  have hc := hl.call
  have hchg : Chg .none s1 { s1 with libs := s1.libs ++ [l] } :=
    chg_other rfl rfl rfl rfl (List.prefix_refl _) (List.prefix_append _ _) (List.prefix_refl _) (List.prefix_refl _) (List.prefix_refl _) fun _ _ h => h
  have hlat := hchg.later (E := E) (rg := between s s1) (Nat.le_of_eq hc.tied.len.symm) Region.apart_none
  have hD : ∀ loc v n a, D E False (between s s1) s1 loc v n a → D E False (between s s1) { s1 with libs := s1.libs ++ [l] } loc v n a := fun loc v n a hd =>
    (hd.later hlat).mono id (Region.Le.rfl.or Region.none_le)
  have hc1 : Call E s { s1 with libs := s1.libs ++ [l] } := by
    refine ⟨hc.tied.same rfl rfl rfl (List.prefix_refl _) rfl, hc.chg.trans (Nat.le_of_eq h0.len) hchg (Region.none_le.on _), fun k l1 hk hl1 => ?_, fun k l1 hk hl1 => ?_⟩
    · by_cases hk1 : k < s1.libs.length
      · have : s1.libs[k]? = some l1 := (List.getElem?_append_left hk1).symm.trans hl1
        exact LibraryReads.mono hD (hc.new.libs k l1 hk this)
      · have : k = s1.libs.length := by
          have := lt_of_get hl1
          simp only [List.length_append, List.length_singleton] at this
          omega
        subst this
        simp at hl1
        subst hl1
        refine ⟨d, ⟨text, by rw [hl.location]; exact hf, hd1⟩, ?_, ?_, hl.uses⟩
        · rw [hl.location]; exact SectionReads.mono (hD _) hl.types
        · rw [hl.location]; exact SectionReads.mono (hD _) hl.annotationTypes
    · exact DataTypeReads.mono hD (hc.new.dts k l1 hk hl1)
  obtain ⟨_, s3, r6, r7⟩ := M.bind_ok.1 r5
  obtain ⟨hc2, h1, -⟩ := hc1.put (by intro i h; cases h) (by intro i h; cases h) r6
  obtain ⟨good, s4, r8, r9⟩ := M.bind_ok.1 r7
  cases good with
  | false => cases r9
  | true =>
    obtain ⟨rfl, rfl⟩ := M.ret_ok.1 r9
    exact linkUses_reads hg h0 hc.chg.libs.length_le l.uses (usesRead_get hl.uses) hc2 ⟨l, by rw [h1]; simp, rfl⟩ r8

theorem parseLibrary_reads (hg : Good E c) (h0 : Tied E s) {path : String} {i : Nat} (hr : parseLibrary E c path s = (.ok i, s')) : Call E s s' := by
  unfold parseLibrary at hr
  cases hf : getFragment s path with
  | some f =>
    rw [hf] at hr
    cases f with
    | library j => cases hr; exact .refl h0
    | dataType j => cases hr
    | namedExample j => cases hr
  | none =>
    rw [hf] at hr
    simp only at hr
    cases hfile : E.file path with
    | none => rw [hfile] at hr; cases hr
    | some text =>
      rw [hfile] at hr
      simp only at hr
      obtain ⟨_, s1, r1, r2⟩ := M.bind_ok.1 hr
      obtain ⟨_, rfl⟩ := M.lift_ok.1 r1
      exact decodeLibrary_reads hg h0 hfile r2

/-! ## Data types -/

theorem dataTypeEntries_reads : ∀ (l : List YNode) {u : OMap (String × Option Nat)} {fs : List YNode} {r : OMap (String × Option Nat) × List YNode}
    {es : List (String × YNode)}, UsesRead es u → dataTypeEntries l u fs = .ok r → UsesRead (es ++ entriesOf l) r.1 ∧ r.2 = fs ++ declarationNodes l
  | [], u, fs, r, es, h, hr => by cases hr; simpa [entriesOf, declarationNodes] using h
  | [_], u, fs, r, es, h, hr => by cases hr
  | k :: v :: rest, u, fs, r, es, h, hr => by
    unfold dataTypeEntries at hr
    rw [entriesOf_pair, declarationNodes]
    have hcons : es ++ (k.value, v) :: entriesOf rest = (es ++ [(k.value, v)]) ++ entriesOf rest := by simp
    rw [hcons]
    by_cases hk1 : k.value = "usage"
    · rw [if_pos hk1] at hr
      rw [if_pos (.inl hk1)]
      exact dataTypeEntries_reads rest (counted_skip (by rw [hk1]; decide) h) hr
    rw [if_neg hk1] at hr
    by_cases hk2 : k.value = "uses"
    · rw [if_pos hk2] at hr
      rw [if_pos (.inr hk2)]
      by_cases hv : v.tag = "!!null"
      · rw [if_pos hv] at hr
        refine dataTypeEntries_reads rest ?_ hr
        unfold UsesRead at h ⊢
        rwa [show (es ++ [(k.value, v)]).filter _ = _ from counted_null hv]
      · rw [if_neg hv] at hr
        obtain ⟨m, h1, h2⟩ := out_bind hr
        rw [hk2]
        exact dataTypeEntries_reads rest (uses_here hv h1) h2
    · rw [if_neg hk2] at hr
      rw [if_neg (by simp [hk1, hk2])]
      have := dataTypeEntries_reads rest (es := es ++ [(k.value, v)]) (counted_skip hk2 h) hr
      simpa using this

theorem unmarshalDataType_reads (hg : Good E c) (h0 : Tied E s) {path : String} {n : YNode} {d : DT} (hr : unmarshalDataType E c path n s = (.ok d, s')) :
    Call E s s' ∧ d.location = path ∧ UsesRead (entriesOf n.content) d.uses ∧
      ∃ a, d.shape = some a ∧ D E False (between s s') s' path (.mk .mapping "" "" (declarationNodes n.content)) (E.baseName path) a := by
  unfold unmarshalDataType at hr
  obtain ⟨r, s1, r1, r2⟩ := M.bind_ok.1 hr
  obtain ⟨r3, rfl⟩ := M.lift_ok.1 r1
  obtain ⟨a, s2, r4, r5⟩ := M.bind_ok.1 r2
  obtain ⟨rfl, rfl⟩ := M.ret_ok.1 r5
  obtain ⟨h1, h2⟩ := dataTypeEntries_reads n.content (es := []) (u := []) rfl r3
  obtain ⟨h3, h4⟩ := hg.shape h0 r4
  refine ⟨h3, rfl, h1, a, rfl, ?_⟩
  rw [List.nil_append] at h2
  rw [← h2]; exact h4

theorem newDT_call (h0 : Tied E s) (hc : Call E s s1) {d : DT} (hd : DataTypeReads E (D E False (between s s1) s1) d) : Call E s { s1 with dts := s1.dts ++ [d] } := by
  have hchg : Chg .none s1 { s1 with dts := s1.dts ++ [d] } :=
    chg_other rfl rfl rfl rfl (List.prefix_refl _) (List.prefix_refl _) (List.prefix_append _ _) (List.prefix_refl _) (List.prefix_refl _) fun _ _ h => h
  have hlat := hchg.later (E := E) (rg := between s s1) (Nat.le_of_eq hc.tied.len.symm) Region.apart_none
  have hD : ∀ loc v n a, D E False (between s s1) s1 loc v n a → D E False (between s s1) { s1 with dts := s1.dts ++ [d] } loc v n a := fun loc v n a hd =>
    (hd.later hlat).mono id (Region.Le.rfl.or Region.none_le)
  refine ⟨⟨hc.tied.len, hc.tied.own, hc.tied.clear, fun p i hp => ?_, hc.tied.nes⟩, hc.chg.trans (Nat.le_of_eq h0.len) hchg (Region.none_le.on _), fun k l1 hk hl1 => ?_,
    fun k l1 hk hl1 => ?_⟩
  · obtain ⟨d', h1, h2⟩ := hc.tied.dts p i hp
    exact ⟨d', prefix_get hchg.dts h1, h2⟩
  · exact LibraryReads.mono hD (hc.new.libs k l1 hk hl1)
  · by_cases hk1 : k < s1.dts.length
    · have : s1.dts[k]? = some l1 := (List.getElem?_append_left hk1).symm.trans hl1
      exact DataTypeReads.mono hD (hc.new.dts k l1 hk this)
    · have : k = s1.dts.length := by
        have := lt_of_get hl1
        simp only [List.length_append, List.length_singleton] at this
        omega
      subst this
      simp at hl1
      subst hl1
      exact DataTypeReads.mono hD hd

theorem linkDataTypeUses_reads (hg : Good E c) (h0 : Tied E s) {i : Nat} (hi : s.dts.length ≤ i) {path : String} {p : OMap String} :
    ∀ (us : List (String × String × Option Nat)) {s1 s' : St} {u : Unit}, (∀ e ∈ us, OMap.get p e.1 = some e.2.1) → Call E s s1 →
    (∃ l, s1.dts[i]? = some l ∧ paths l.uses = p ∧ l.location = path) → linkDataTypeUses E c i path us s1 = (.ok u, s') →
    Call E s s' ∧ ∃ l, s'.dts[i]? = some l ∧ l.location = path
  | [], s1, s', u, _, h, hl, hr => by
    obtain ⟨_, rfl⟩ := M.ret_ok.1 hr
    obtain ⟨l, h1, _, h2⟩ := hl
    exact ⟨h, l, h1, h2⟩
  | (key, value, x) :: us, s1, s', u, hu, h, hl, hr => by
    unfold linkDataTypeUses at hr
    obtain ⟨j, s2, r1, r2⟩ := M.bind_ok.1 hr
    obtain ⟨_, s3, r4, r5⟩ := M.bind_ok.1 r2
    have hc := hg.lib h.tied r1
    obtain ⟨l, h1, h2, h3⟩ := hl
    have h4 := prefix_get hc.chg.dts h1
    obtain ⟨h5, l', h6, h7, h8⟩ := (h.trans h0 hc).linkDT hi h4 (by rw [h2]; exact hu (key, value, x) (by simp)) r4
    exact linkDataTypeUses_reads hg h0 hi us (fun e he => hu e (by simp [he])) h5 ⟨l', h6, h7.trans h2, h8.trans h3⟩ r5

theorem decodeDataType_reads (hg : Good E c) (h0 : Tied E s) {text path : String} {i : Nat} (hf : E.file path = some text)
    (hr : decodeDataType E c text path s = (.ok i, s')) : Call E s s' ∧ ∃ d, s'.dts[i]? = some d ∧ d.location = path := by
  unfold decodeDataType at hr
  by_cases hj : ".json".toList <:+ path.toList
  · rw [if_pos hj] at hr
    obtain ⟨d, s1, r1, r2⟩ := M.bind_ok.1 hr
    obtain ⟨hc, h1, h2, a, h3, h4⟩ := unmarshalDataType_reads hg h0 r1
    obtain ⟨j, s2, r3, r4⟩ := M.bind_ok.1 r2
    unfold Heap.newDT at r3
    cases r3
    have hd : DataTypeReads E (D E False (between s s1) s1) d := by
      refine ⟨a, h3, ?_⟩
      rw [h1, if_pos hj]
      exact ⟨List.map_eq_nil_iff.1 h2, text, hf, h4⟩
    have hc1 := newDT_call h0 hc hd
    obtain ⟨_, s3, r5, r6⟩ := M.bind_ok.1 r4
    obtain ⟨rfl, rfl⟩ := M.ret_ok.1 r6
    obtain ⟨hc2, -, h5⟩ := hc1.put (by intro i h; cases h; exact ⟨d, by simp, h1⟩) (by intro i h; cases h) r5
    exact ⟨hc2, d, by rw [h5]; simp, h1⟩
  · rw [if_neg hj] at hr
    obtain ⟨d, s1, r1, r2⟩ := M.bind_ok.1 hr
    obtain ⟨doc, hd1, hd2, r1⟩ := decodeFragment_ok r1
    obtain ⟨hc, h1, h2, a, h3, h4⟩ := unmarshalDataType_reads hg h0 r1
    obtain ⟨j, s2, r3, r4⟩ := M.bind_ok.1 r2
    unfold Heap.newDT at r3
    cases r3
    have hd : DataTypeReads E (D E False (between s s1) s1) d := by
      refine ⟨a, h3, ?_⟩
      rw [h1, if_neg hj]
      exact ⟨doc, ⟨text, hf, hd1⟩, h2, h4⟩
    have hc1 := newDT_call h0 hc hd
    obtain ⟨_, s3, r5, r6⟩ := M.bind_ok.1 r4
    obtain ⟨hc2, -, h5⟩ := hc1.put (by intro i h; cases h; exact ⟨d, by simp, h1⟩) (by intro i h; cases h) r5
    obtain ⟨_, s4, r7, r8⟩ := M.bind_ok.1 r6
    obtain ⟨rfl, rfl⟩ := M.ret_ok.1 r8
    exact linkDataTypeUses_reads hg h0 hc.chg.dts.length_le d.uses (usesRead_get h2) hc2 ⟨d, by rw [h5]; simp, rfl, h1⟩ r7

theorem parseDataType_reads (hg : Good E c) (h0 : Tied E s) {path : String} {i : Nat} (hr : parseDataType E c path s = (.ok i, s')) :
    Call E s s' ∧ ∃ d, s'.dts[i]? = some d ∧ d.location = path := by
  unfold parseDataType at hr
  cases hf : getFragment s path with
  | some f =>
    rw [hf] at hr
    cases f with
    | dataType j => cases hr; exact ⟨.refl h0, h0.dts path _ hf⟩
    | library j => cases hr
    | namedExample j => cases hr
  | none =>
    rw [hf] at hr
    simp only at hr
    cases hfile : E.file path with
    | none => rw [hfile] at hr; cases hr
    | some text =>
      rw [hfile] at hr
      simp only at hr
      obtain ⟨_, s1, r1, r2⟩ := M.bind_ok.1 hr
      obtain ⟨_, rfl⟩ := M.lift_ok.1 r1
      exact decodeDataType_reads hg h0 hfile r2

/-! ## All calls -/

theorem good (E : Env) : ∀ n, Good E (calls E n)
  | 0 => ⟨fun _ h => by simp [calls, M.diverge] at h, fun _ h => by simp [calls, M.diverge] at h, fun _ h => by simp [calls, M.diverge] at h⟩
  | n + 1 => ⟨fun ht h => makeNewShapeYAML_reads (good E n) ht h, fun ht h => parseDataType_reads (good E n) ht h, fun ht h => parseLibrary_reads (good E n) ht h⟩

end

end GoRaml.Read
