import Verif.Lemmas.ReadEntries

/-!
# Decoding fidelity: types
-/

namespace GoRaml.Read

open GoRaml GoRaml.Spec GoRaml.Load

/-! ## Inferred types -/

theorem facetType_keyword {k t : String} {o : Bool} (h : facetType k = some (t, o)) : t ∈ ["string", "number", "array", "object", "file"] := by
  unfold facetType at h
  split at h
  · cases h; decide
  split at h
  · cases h; decide
  split at h
  · cases h; decide
  split at h
  · cases h; decide
  split at h
  · cases h; decide
  split at h
  · cases h; decide
  · cases h

theorem identifyStep_keyword {st st' : String × Bool} {k : String} (hs : st.1 = "" ∨ st.1 ∈ ["string", "number", "array", "object", "file"])
    (h : identifyStep st k = .ok st') : st'.1 = "" ∨ st'.1 ∈ ["string", "number", "array", "object", "file"] := by
  unfold identifyStep at h
  cases hf : facetType k with
  | none => rw [hf] at h; cases h; exact hs
  | some p =>
    obtain ⟨ft, o⟩ := p
    rw [hf] at h
    simp only at h
    by_cases hp : (st.1 = "string" ∧ ft = "file" ∨ st.1 = "file" ∧ ft = "string") ∧ (st.2 || o) = false
    · rw [if_pos hp, if_pos hp] at h
      split at h
      · cases h
      · cases h; right; exact (by decide : "file" ∈ ["string", "number", "array", "object", "file"])
    · rw [if_neg hp, if_neg hp] at h
      split at h
      · cases h
      · cases h; right; exact facetType_keyword hf

theorem identifyLoop_keyword : ∀ (l : List YNode) {st st' : String × Bool}, (st.1 = "" ∨ st.1 ∈ ["string", "number", "array", "object", "file"]) →
    identifyLoop l st = .ok st' → st'.1 = "" ∨ st'.1 ∈ ["string", "number", "array", "object", "file"]
  | [], st, st', hs, h => by cases h; exact hs
  | [_], st, st', hs, h => by
    obtain ⟨x, _, h2⟩ := out_bind h
    cases h2
  | _ :: _ :: rest, st, st', hs, h => by
    obtain ⟨x, h1, h2⟩ := out_bind h
    exact identifyLoop_keyword rest (identifyStep_keyword hs h1) h2

theorem identify_known {l : List YNode} {t : String} (h : identifyShapeType l = .ok t) : Kind (emptyShape t) ≠ "unknown" := by
  obtain ⟨st, h1, h2⟩ := out_bind h
  have := identifyLoop_keyword l (.inl rfl) h1
  cases h2
  apply keyword_known
  split
  · decide
  · rename_i hn
    rcases this with h | h
    · exact absurd h hn
    · revert h
      generalize st.1 = u
      intro h
      simp only [List.mem_cons, List.not_mem_nil, or_false] at h
      rcases h with h | h | h | h | h <;> subst h <;> decide

section
variable {E : Env} {c : Calls} {rg rg' : Region} {s s1 s2 s' : St} {a : Addr} {b : Base} {name loc : String} {lo : Nat} {es : List (String × YNode)}

/-! ## A new base -/

/-- The state after `makeBaseShape`. -/
abbrev born (s : St) (name loc : String) : St :=
  { s with idCounter := s.idCounter + 1, fmaps := s.fmaps ++ [[]], pmaps := s.pmaps ++ [[]], bases := s.bases ++ [newBaseOf s name loc],
           shapes := s.shapes ++ [s.bases.length] }

theorem base_born {z : Addr} {b : Base} (h : (born s name loc).base z = some b) : s.base z = some b ∨ (z = s.bases.length ∧ b = newBaseOf s name loc) := by
  unfold St.base at *
  change (s.bases ++ [newBaseOf s name loc])[z]? = _ at h
  by_cases hz : z < s.bases.length
  · rw [List.getElem?_append_left hz] at h; exact .inl h
  · have hl := lt_of_get h
    simp only [List.length_append, List.length_singleton] at hl
    have : z = s.bases.length := Nat.le_antisymm (Nat.le_of_lt_succ hl) (Nat.le_of_not_lt hz)
    subst this
    simp at h
    exact .inr ⟨rfl, h.symm⟩

theorem chg_born : Chg .none s (born s name loc) where
  bases := by simp
  b := fun z hz _ => List.getElem?_append_left hz
  fmaps := by simp
  fm := fun z hz _ => List.getElem?_append_left hz
  pmaps := by simp
  p := fun z hz _ => List.getElem?_append_left hz
  ppmaps := Nat.le_refl _
  q := fun _ _ _ => rfl
  slices := List.prefix_refl _
  libs := List.prefix_refl _
  dts := List.prefix_refl _
  nes := List.prefix_refl _
  exts := List.prefix_refl _
  frags := fun _ _ h => h

theorem call_born (h : Tied E s) : Call E s (born s name loc) := by
  refine .quiet h ⟨by simp [h.len], fun z b hb => ?_, fun z b hb hu => ?_, h.dts, h.nes⟩ chg_born rfl rfl
  · rcases base_born hb with hb | ⟨rfl, rfl⟩
    · exact h.own z b hb
    · simp [newBaseOf, h.len]
  · rcases base_born hb with hb | ⟨rfl, rfl⟩
    · have := h.clear z b hb hu
      exact (List.getElem?_append_left (lt_of_get this)).trans this
    · obtain ⟨f, hf⟩ := hu; cases hf

theorem head_born (h : Tied E s) : Head E (born s name loc) s.bases.length name loc s.pmaps.length [] .none (born s name loc) (newBaseOf s name loc) where
  inv := .start (call_born h).tied
  base := by simp [St.base]
  name := rfl
  location := rfl
  shape := rfl
  link := rfl
  inherits := rfl
  fmap := by simp [← h.len]
  defs := fun i hi => by cases hi; exact ⟨id, Nat.le_refl _, by simp⟩
  head := ⟨reads_nil, reads_nil, reads_nil, reads_nil, reads_nil, reads_nil, by simp [newBaseOf, St.props, Reads, lastOf], lists_nil⟩

/-! ## Parents -/

theorem makeInherits_reads (hg : Good E c) : ∀ (ns : List YNode) {s s' : St} {l : List Addr}, Tied E s → makeInherits c name loc ns s = (.ok l, s') →
    Call E s s' ∧ List.Forall₂ (fun n p => D E False (between s s') s' loc n name p) ns l
  | [], s, s', l, h, hr => by
    obtain ⟨rfl, rfl⟩ := M.ret_ok.1 hr
    exact ⟨.refl h, .nil⟩
  | n :: rest, s, s', l, h, hr => by
    unfold makeInherits at hr
    split at hr
    · cases hr
    split at hr
    · cases hr
    obtain ⟨p, s2, r1, r2⟩ := M.bind_ok.1 hr
    obtain ⟨h1, hd⟩ := hg.shape h r1
    obtain ⟨l', s3, r3, r4⟩ := M.bind_ok.1 r2
    obtain ⟨rfl, rfl⟩ := M.ret_ok.1 r4
    obtain ⟨h2, hl⟩ := makeInherits_reads hg rest h1.tied r3
    refine ⟨h1.trans h h2, .cons ?_ (hl.imp fun n p hp => hp.mono id h1.chg.between_le)⟩
    exact (hd.chg h2.chg (Nat.le_of_eq h1.tied.len.symm) Region.apart_none).mono id (Chg.le_between .rfl h2.chg)

/-! ## Writing the shape -/

/-- What `Heading` looks at is the same. -/
structure SameHeading (b b' : Base) : Prop where
  name : b'.name = b.name
  location : b'.location = b.location
  displayName : b'.displayName = b.displayName
  description : b'.description = b.description
  required : b'.required = b.required
  default : b'.default = b.default
  example_ : b'.example_ = b.example_
  examples : b'.examples = b.examples
  facetDefs : b'.facetDefs = b.facetDefs
  domainProps : b'.domainProps = b.domainProps
  facets : b'.facets = b.facets

theorem Heading.same {R : YNode → String → Addr → Prop} {b b' : Base} (h : Heading E s loc R es b) (hs : SameHeading b b') : Heading E s loc R es b' where
  displayName := by rw [hs.displayName]; exact h.displayName
  description := by rw [hs.description]; exact h.description
  required := by rw [hs.required]; exact h.required
  default := by rw [hs.default]; exact h.default
  example_ := by rw [hs.example_]; exact h.example_
  examples := by rw [hs.examples]; exact h.examples
  facetDefs := by rw [hs.facetDefs]; exact h.facetDefs
  annotations := by rw [hs.domainProps]; exact h.annotations

/-- All that is needed at the end. -/
theorem finish_reads {v : YNode} {t : Option YNode} {facets : Option (List YNode)} {src : Source} (ht : Tied E s)
    (hinv : Inv E (atBase s.bases.length) (born s name loc) rg s') (hb : s'.base s.bases.length = some b) (hn : b.name = name) (hl : b.location = loc)
    (hp : Parts v es t facets) (hh : Heading E s' loc (D E False rg s' loc) es b) (hs : IsSource E loc (facets.getD []) t src)
    (hd : ∀ i, b.facetDefs = some i → s.pmaps.length ≤ i ∧ i < s'.pmaps.length) (hm : MapsIn s' (between s s') b.shape)
    (hx : (b.shape = some (.unknown facets) ∧ s'.facetMap b.facets = [] ∧ Pending s' (D E False rg s' loc) name b src) ∨
      ((Late src → False) ∧ SourceReads E s' loc (D E False rg s' loc) name facets b src)) :
    Call E s s' ∧ D E False (between s s') s' loc v name s.bases.length := by
  have hcb := call_born (name := name) (loc := loc) ht
  have hle : rg.Le (between s s') := hinv.le.trans hcb.chg.between_le
  have hD : ∀ v n a, D E False rg s' loc v n a → D E False (between s s') s' loc v n a := fun v n a h => h.mono id hle
  have hcall : Call E s s' := by
    refine ⟨hinv.tied, hcb.chg.trans (Nat.le_of_eq ht.len) hinv.chg ⟨fun z hz he => ?_, fun _ _ h => h, fun _ _ h => h⟩, ?_⟩
    · cases he; exact absurd hz (Nat.lt_irrefl _)
    · exact ⟨fun j l h1 h2 => (hinv.new.mono id hle).libs j l h1 h2, fun j l h1 h2 => (hinv.new.mono id hle).dts j l h1 h2⟩
  refine ⟨hcall, D.fold ⟨b, es, t, facets, src, hb, hn, hl, hp, Heading.carry (.refl hD) rfl (.refl _) hh, hs, ?_, ?_⟩⟩
  · refine ⟨⟨Nat.le_refl _, lt_of_get hb⟩, hinv.tied.own _ _ hb, ?_, fun i hi => ⟨hd i hi, (hd i hi).2⟩, hm⟩
    rw [hinv.tied.len]; exact lt_of_get hb
  · rcases hx with ⟨h1, h2, h3⟩ | ⟨h1, h2⟩
    · exact .inl ⟨h1, h2, Pending.mono hD h3⟩
    · exact .inr ⟨h1, SourceReads.mono hD h2⟩

theorem Head.facetMap (h : Head E s1 a name loc lo es rg s b) {b' : Base} (hb : b'.facets = b.facets) : s.facetMap b'.facets = [] := by
  rw [hb, h.inv.tied.own a b h.base]; simp [St.facetMap, h.fmap]

/-- A write that makes no object. -/
theorem Head.last {s : St} {v : YNode} {t : Option YNode} {facets : Option (List YNode)} {src : Source} (ht : Tied E s)
    (h : Head E (born s name loc) s.bases.length name loc s.pmaps.length es rg s2 b) (g : Base → Base) (hg : SameHeading b (g b))
    (hp : Parts v es t facets) (hs : IsSource E loc (facets.getD []) t src) (ho : ∀ f, (g b).shape ≠ some (.object f))
    (hx : ((g b).shape = some (.unknown facets) ∧ Pending s2 (D E False rg s2 loc) name (g b) src) ∨
      ((Late src → False) ∧ ∀ s', s'.facetMap (g b).facets = [] → SourceReads E s' loc (D E False rg s' loc) name facets (g b) src)) :
    Call E s { s2 with bases := s2.bases.modify s.bases.length g } ∧
      D E False (between s { s2 with bases := s2.bases.modify s.bases.length g }) { s2 with bases := s2.bases.modify s.bases.length g } loc v name s.bases.length := by
  have ha : s.bases.length < (born s name loc).bases.length := by simp
  have hc := chg_updBase (s := s2) s.bases.length g
  have hap := not_in_region ha h.inv.le
  have hcar := chg_carry (loc := loc) (E := E) hc (Nat.le_of_eq h.inv.tied.len.symm) hap .rfl
  have hfm := h.facetMap hg.facets
  refine finish_reads ht (h.inv.write hc (h.inv.tied.updBase fun b0 hb0 => ?_) rfl rfl hap (Region.Le.rfl.on _)) (base_modify_eq h.base)
    (hg.name.trans h.name) (hg.location.trans h.location) hp (Heading.carry hcar rfl (.refl _) (Heading.same h.head hg)) hs (fun i hi => ?_) (fun f hf => absurd hf (ho f)) ?_
  · rw [h.base] at hb0; cases hb0
    exact ⟨hg.facets, fun _ => h.fmap⟩
  · rw [hg.facetDefs] at hi
    exact (h.defs i hi).2
  · rcases hx with ⟨h1, h2⟩ | ⟨h1, h2⟩
    · refine .inl ⟨h1, hfm, ?_⟩
      cases src with
      | named _ => exact h2
      | json _ => exact h2
      | expr _ => exact h2
      | included _ _ => exact h2
      | parents ns =>
        obtain ⟨k1, k2, i, l, k3, k4, k5⟩ := h2
        exact ⟨k1, k2, i, l, k3, k4, k5.imp fun n p hp => (hcar _ _ _ hp).1⟩
    · exact .inr ⟨h1, h2 _ hfm⟩

/-- A type that names its kind. -/
theorem Head.made {s : St} {v : YNode} {t : Option YNode} {facets : Option (List YNode)} {T : String} (hg : Good E c) (ht : Tied E s)
    (h : Head E (born s name loc) s.bases.length name loc s.pmaps.length es rg s2 b) (hp : Parts v es t facets)
    (hs : IsSource E loc (facets.getD []) t (.named T)) (hk : Kind (emptyShape T) ≠ "unknown")
    (hr : makeConcrete E c s.bases.length T facets s2 = (.ok (), s')) : Call E s s' ∧ D E False (between s s') s' loc v name s.bases.length := by
  have ha : s.bases.length < (born s name loc).bases.length := by simp
  obtain ⟨rg', sh, hmade⟩ := makeConcrete_reads hg h.inv.tied h.base hk ⟨[], h.fmap, .inl rfl⟩ hr
  have hap := not_in_region ha h.inv.le
  have hcb := chg_born (s := s) (name := name) (loc := loc)
  have hinv : Inv E (atBase s.bases.length) (born s name loc) (rg.or rg') s' := by
    refine ⟨h.inv.tied0, hmade.inv.tied, h.inv.chg.trans (Nat.le_of_eq h.inv.tied0.len) hmade.inv.chg (Region.Le.rfl.on _), ?_, ?_⟩
    · exact (h.inv.new.trans (hmade.inv.chg.later (Nat.le_of_eq h.inv.tied.len.symm) hap) hmade.inv.chg.libs hmade.inv.chg.dts hmade.inv.new).mono id
        ((Region.le_left.or Region.none_le).or Region.le_right)
    · exact (Chg.le_between h.inv.le hmade.inv.chg).or (hmade.inv.le.trans h.inv.chg.between_le)
  have hcar := chg_carry (loc := loc) (E := E) hmade.inv.chg (Nat.le_of_eq h.inv.tied.len.symm) hap (Region.le_left (r := rg) (r' := rg'))
  refine finish_reads ht hinv hmade.base h.name h.location hp ?_ hs (fun i hi => ⟨(h.defs i hi).2.1, Nat.lt_of_lt_of_le (h.defs i hi).2.2 hmade.inv.chg.pmaps⟩)
    (fun f hf => ?_) (.inr ⟨id, ?_⟩)
  · refine Heading.carry hcar ?_ hmade.inv.chg.sameExts (Heading.same h.head ⟨rfl, rfl, rfl, rfl, rfl, rfl, rfl, rfl, rfl, rfl, rfl⟩)
    exact props_chg hmade.inv.chg fun i hi => ⟨(h.defs i hi).2.2, id⟩
  · have hm := hmade.maps f (Option.some.inj hf)
    have hl1 : s.pmaps.length ≤ s2.pmaps.length := hcb.pmaps.trans h.inv.chg.pmaps
    have hl2 : s.ppmaps.length ≤ s2.ppmaps.length := hcb.ppmaps.trans h.inv.chg.ppmaps
    exact ⟨fun i hi => ⟨⟨hl1.trans (hm.1 i hi).2.1, (hm.1 i hi).2.2⟩, (hm.1 i hi).2.2⟩, fun i hi => ⟨⟨hl2.trans (hm.2 i hi).2.1, (hm.2 i hi).2.2⟩, (hm.2 i hi).2.2⟩⟩
  · have := hmade.has
    obtain rfl := h.location
    exact Has.carry (.refl fun v n a (hd : D E False rg' s' _ v n a) => hd.mono id Region.le_right) (fun _ _ _ _ => ⟨rfl, rfl⟩) rfl this

theorem finishShape_known {T : String} {facets : Option (List YNode)} {r : Addr} (hk : Kind (emptyShape T) ≠ "unknown")
    (hr : finishShape E c a T facets s = (.ok r, s')) : r = a ∧ makeConcrete E c a T facets s = (.ok (), s') := by
  unfold finishShape at hr
  obtain ⟨u, s2, r1, r2⟩ := M.bind_ok.1 hr
  cases he : emptyShape T with
  | unknown f => exact absurd (by rw [he]; rfl) hk
  | _ =>
    rw [he] at r2
    obtain ⟨rfl, rfl⟩ := M.ret_ok.1 r2; exact ⟨rfl, r1⟩

theorem finishShape_unknown {T : String} {facets : Option (List YNode)} {r : Addr} (hb : s.base a = some b) (hk : Kind (emptyShape T) = "unknown")
    (hr : finishShape E c a T facets s = (.ok r, s')) :
    r = a ∧ s' = { s with unresolved := s.unresolved ++ [a], bases := s.bases.modify a fun b => { b with type := T, shape := some (.unknown facets) } } := by
  unfold finishShape at hr
  obtain ⟨u, s2, r1, r2⟩ := M.bind_ok.1 hr
  have := makeConcrete_unknown hb hk r1
  subst this
  obtain ⟨f, hf⟩ := kind_unknown hk
  rw [hf] at r2
  simp only at r2
  obtain ⟨_, s3, r3, r4⟩ := M.bind_ok.1 r2
  obtain ⟨rfl, rfl⟩ := M.ret_ok.1 r4
  unfold Heap.pushUnresolved at r3
  cases r3
  exact ⟨rfl, rfl⟩

theorem call_push (h : Tied E s) : Call E s { s with unresolved := s.unresolved ++ [a] } :=
  .quiet h (h.same rfl rfl rfl (List.prefix_refl _) rfl)
    (chg_other rfl rfl rfl rfl (List.prefix_refl _) (List.prefix_refl _) (List.prefix_refl _) (List.prefix_refl _) (List.prefix_refl _) fun _ _ h => h) rfl rfl

theorem call_slice (h : Tied E s) (l : List Addr) : Call E s { s with slices := s.slices ++ [l] } :=
  .quiet h (h.same rfl rfl rfl (List.prefix_refl _) rfl)
    (chg_other rfl rfl rfl rfl (List.prefix_append _ _) (List.prefix_refl _) (List.prefix_refl _) (List.prefix_refl _) (List.prefix_refl _) fun _ _ h => h) rfl rfl

theorem Head.lists {l : List YNode} {r : List Addr} (h : Head E s1 a name loc lo es rg s b) (hc : Call E s s')
    (hl : List.Forall₂ (fun n p => D E False rg s loc n name p) l r) : List.Forall₂ (fun n p => D E False (rg.or (between s s')) s' loc n name p) l r :=
  hl.imp fun _ _ hp => h.inv.callD hc hp

theorem makeShape_some {s : St} {v n : YNode} {facets : Option (List YNode)} {r : Addr} (hg : Good E c) (ht : Tied E s)
    (h : Head E (born s name loc) s.bases.length name loc s.pmaps.length es rg s2 b) (hp : Parts v es (some n) facets)
    (hr : (M.bind (makeShapeType E c n facets name loc s.bases.length) fun st =>
      match st with
      | none => M.ret s.bases.length
      | some shapeType => finishShape E c s.bases.length shapeType facets) s2 = (.ok r, s')) :
    r = s.bases.length ∧ Call E s s' ∧ D E False (between s s') s' loc v name s.bases.length := by
  have ha : s.bases.length < (born s name loc).bases.length := by simp
  obtain ⟨st, s3, r1, r2⟩ := M.bind_ok.1 hr
  unfold makeShapeType at r1
  cases hkind : n.kind with
  | zero => rw [hkind] at r1; cases r1
  | document => rw [hkind] at r1; cases r1
  | mapping => rw [hkind] at r1; cases r1
  | «alias» => rw [hkind] at r1; cases r1
  | sequence =>
    rw [hkind] at r1
    simp only at r1
    obtain ⟨l, s4, r3, r4⟩ := M.bind_ok.1 r1
    obtain ⟨hc1, hl⟩ := makeInherits_reads hg n.content h.inv.tied r3
    obtain ⟨i, s5, r5, r6⟩ := M.bind_ok.1 r4
    unfold Heap.newSlice at r5
    cases r5
    obtain ⟨_, s6, r7, r8⟩ := M.bind_ok.1 r6
    obtain ⟨rfl, rfl⟩ := M.ret_ok.1 r8
    unfold Heap.updBase at r7
    cases r7
    simp only at r2
    have h1 := h.call hc1
    have hl1 := hl.imp fun n p hd => hd.mono (rg' := rg.or (between s2 s4)) id Region.le_right
    have hc2 := call_slice h1.inv.tied l
    have h2 := h1.call hc2
    have hl2 := h1.lists hc2 hl1
    have hc3 := call_push (a := s.bases.length) h2.inv.tied
    have h3 := h2.call hc3
    have hl3 := h2.lists hc3 hl2
    obtain ⟨rfl, rfl⟩ := finishShape_unknown (base_modify_eq (s := { s4 with slices := s4.slices ++ [l] }) h2.base) (by decide) r2
    have key := h3.last ht (fun b => { b with inherits := some s4.slices.length, type := "composite", shape := some (.unknown facets) })
      ⟨rfl, rfl, rfl, rfl, rfl, rfl, rfl, rfl, rfl, rfl, rfl⟩ hp (.parents hkind) (by intro f hf; cases hf)
      (.inl ⟨rfl, rfl, h.link, _, l, rfl, by simp, hl3⟩)
    refine ⟨rfl, ?_⟩
    simpa [List.modify_modify_eq, Function.comp_def] using key
  | scalar =>
    rw [hkind] at r1
    simp only at r1
    by_cases htag : n.tag = "!!str"
    · rw [if_pos htag] at r1
      by_cases hempty : n.value = ""
      · rw [if_pos hempty] at r1
        obtain ⟨T, s4, r3, r4⟩ := M.bind_ok.1 r1
        obtain ⟨r5, rfl⟩ := M.lift_ok.1 r3
        obtain ⟨rfl, rfl⟩ := M.ret_ok.1 r4
        simp only at r2
        obtain ⟨rfl, r6⟩ := finishShape_known (identify_known r5) r2
        exact ⟨rfl, h.made hg ht hp (.empty hkind htag hempty r5) (identify_known r5) r6⟩
      rw [if_neg hempty] at r1
      by_cases hjson : n.value.toList.head? = some '{'
      · rw [if_pos hjson] at r1
        obtain ⟨_, s4, r3, r4⟩ := M.bind_ok.1 r1
        unfold Heap.updBase at r3
        cases r3
        obtain ⟨js, s5, r5, r6⟩ := M.bind_ok.1 r4
        obtain ⟨r7, rfl⟩ := M.lift_ok.1 r5
        obtain ⟨_, s6, r8, r9⟩ := M.bind_ok.1 r6
        obtain ⟨rfl, rfl⟩ := M.ret_ok.1 r9
        unfold setShape Heap.updBase at r8
        cases r8
        simp only at r2
        obtain ⟨rfl, rfl⟩ := M.ret_ok.1 r2
        have key := h.last ht (fun b => { b with type := "json", shape := some (.json n.value (some js)) })
          ⟨rfl, rfl, rfl, rfl, rfl, rfl, rfl, rfl, rfl, rfl, rfl⟩ hp (.json hkind htag hjson) (by intro f hf; cases hf)
          (.inr ⟨id, fun s' hf => ⟨rfl, hf, js, orErr_ok r7, rfl⟩⟩)
        refine ⟨rfl, ?_⟩
        simpa [List.modify_modify_eq, Function.comp_def] using key
      rw [if_neg hjson] at r1
      obtain ⟨rfl, rfl⟩ := M.ret_ok.1 r1
      simp only at r2
      by_cases hk : Kind (emptyShape n.value) = "unknown"
      · have h3 := h.call (call_push (a := s.bases.length) h.inv.tied)
        obtain ⟨rfl, rfl⟩ := finishShape_unknown h.base hk r2
        exact ⟨rfl, h3.last ht (fun b => { b with type := n.value, shape := some (.unknown facets) }) ⟨rfl, rfl, rfl, rfl, rfl, rfl, rfl, rfl, rfl, rfl, rfl⟩ hp
          (.expr hkind htag hempty hjson fun hm => keyword_known hm hk) (by intro f hf; cases hf) (.inl ⟨rfl, rfl, h.link, h.inherits⟩)⟩
      · obtain ⟨rfl, r6⟩ := finishShape_known hk r2
        exact ⟨rfl, h.made hg ht hp (.keyword hkind htag (keyword_kind hk).2) hk r6⟩
    rw [if_neg htag] at r1
    by_cases hinc : n.tag = "!include"
    · rw [if_pos hinc] at r1
      obtain ⟨i, s4, r3, r4⟩ := M.bind_ok.1 r1
      obtain ⟨hc1, d, hd1, hd2⟩ := hg.type h.inv.tied r3
      obtain ⟨_, s5, r5, r6⟩ := M.bind_ok.1 r4
      obtain ⟨rfl, rfl⟩ := M.ret_ok.1 r6
      unfold Heap.updBase at r5
      cases r5
      simp only at r2
      have h1 := h.call hc1
      have h3 := h1.call (call_push (a := s.bases.length) h1.inv.tied)
      obtain ⟨rfl, rfl⟩ := finishShape_unknown (base_modify_eq h1.base) (by decide) r2
      have key := h3.last ht (fun b => { b with typeLabel := n.value, link := some i, type := "", shape := some (.unknown facets) })
        ⟨rfl, rfl, rfl, rfl, rfl, rfl, rfl, rfl, rfl, rfl, rfl⟩ hp (.included hkind hinc) (by intro f hf; cases hf)
        (.inl ⟨rfl, rfl, i, d, rfl, hd1, hd2⟩)
      refine ⟨rfl, ?_⟩
      simpa [List.modify_modify_eq, Function.comp_def] using key
    rw [if_neg hinc] at r1
    by_cases hnull : n.tag = "!!null"
    · rw [if_pos hnull] at r1
      obtain ⟨rfl, rfl⟩ := M.ret_ok.1 r1
      simp only at r2
      obtain ⟨rfl, r6⟩ := finishShape_known (by decide) r2
      exact ⟨rfl, h.made hg ht hp (.null hkind hnull) (by decide) r6⟩
    · rw [if_neg hnull] at r1; cases r1

theorem makeNewShapeYAML_reads {s : St} {v : YNode} {r : Addr} (hg : Good E c) (ht : Tied E s) (hr : makeNewShapeYAML E c v name loc s = (.ok r, s')) :
    Call E s s' ∧ D E False (between s s') s' loc v name r := by
  unfold makeNewShapeYAML at hr
  obtain ⟨a, s1, r1, r2⟩ := M.bind_ok.1 hr
  have hborn : makeBaseShape name loc s = (.ok s.bases.length, born s name loc) := rfl
  rw [hborn] at r1
  cases r1
  have ha : s.bases.length < (born s name loc).bases.length := by simp
  have h0 := head_born (name := name) (loc := loc) ht
  obtain ⟨p, s2, r3, r4⟩ := M.bind_ok.1 r2
  obtain ⟨t, facets⟩ := p
  have key : ∃ es rg b, Head E (born s name loc) s.bases.length name loc s.pmaps.length es rg s2 b ∧ Parts v es t facets := by
    unfold decode at r3
    split at r3
    · rename_i hk
      obtain ⟨e, rfl⟩ := M.ret_ok.1 r3
      cases e
      refine ⟨[], .none, _, h0, ?_⟩
      rw [Parts, if_neg]
      · exact ⟨rfl, rfl, rfl⟩
      · intro h; rcases hk with hk | hk <;> rw [h] at hk <;> cases hk
    split at r3
    · cases r3
    · rename_i hk
      obtain ⟨q, s3, r5, r6⟩ := M.bind_ok.1 r3
      obtain ⟨e, rfl⟩ := M.ret_ok.1 r6
      cases e
      obtain ⟨⟨rg, b, h1⟩, h2, h3⟩ := decodeEntries_reads hg ha (by simp) v.content h0 rfl r5
      rw [List.nil_append] at h1 h2 h3
      refine ⟨_, rg, b, h1, ?_⟩
      rw [Parts, if_pos (not_not.1 hk)]
      exact ⟨rfl, h2, by rw [h3]⟩
  obtain ⟨es, rg, b, h, hp⟩ := key
  cases t with
  | none =>
    simp only at r4
    obtain ⟨T, s4, r5, r6⟩ := M.bind_ok.1 r4
    obtain ⟨r7, rfl⟩ := M.lift_ok.1 r5
    obtain ⟨rfl, r8⟩ := finishShape_known (identify_known r7) r6
    exact h.made hg ht hp (.inferred r7) (identify_known r7) r8
  | some n =>
    obtain ⟨rfl, h1⟩ := makeShape_some hg ht h hp r4
    exact h1

end

end GoRaml.Read
