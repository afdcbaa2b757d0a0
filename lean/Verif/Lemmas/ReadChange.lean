import Verif.Lemmas.ReadBase

/-!
# Decoding fidelity: what steps of the decoder change
-/

namespace GoRaml.Read

open GoRaml GoRaml.Spec GoRaml.Load

/-- Only what is in `c` has changed; there may be new cells. -/
structure Chg (c : Region) (s s' : St) : Prop where
  bases : s.bases.length ≤ s'.bases.length
  b : ∀ z, z < s.bases.length → ¬ c.b z → s'.bases[z]? = s.bases[z]?
  fmaps : s.fmaps.length ≤ s'.fmaps.length
  fm : ∀ z, z < s.fmaps.length → ¬ c.b z → s'.fmaps[z]? = s.fmaps[z]?
  pmaps : s.pmaps.length ≤ s'.pmaps.length
  p : ∀ z, z < s.pmaps.length → ¬ c.p z → s'.pmaps[z]? = s.pmaps[z]?
  ppmaps : s.ppmaps.length ≤ s'.ppmaps.length
  q : ∀ z, z < s.ppmaps.length → ¬ c.q z → s'.ppmaps[z]? = s.ppmaps[z]?
  slices : s.slices <+: s'.slices
  libs : s.libs <+: s'.libs
  dts : s.dts <+: s'.dts
  nes : s.nes <+: s'.nes
  exts : s.domainExts <+: s'.domainExts
  frags : ∀ p f, getFragment s p = some f → getFragment s' p = some f

/-- `c'`, as far as it is in the state, is in `c`. -/
structure Region.On (c' : Region) (s : St) (c : Region) : Prop where
  b : ∀ z, z < s.bases.length → c'.b z → c.b z
  p : ∀ z, z < s.pmaps.length → c'.p z → c.p z
  q : ∀ z, z < s.ppmaps.length → c'.q z → c.q z

theorem Region.Le.on {c c' : Region} (h : c'.Le c) (s : St) : c'.On s c := ⟨fun z _ => h.b z, fun z _ => h.p z, fun z _ => h.q z⟩

theorem between_on {s0 s s' : St} (h : Chg .none s0 s) : (between s s').On s0 .none :=
  ⟨fun _ h1 h2 => absurd h1 (Nat.not_lt.2 (h.bases.trans h2.1)), fun _ h1 h2 => absurd h1 (Nat.not_lt.2 (h.pmaps.trans h2.1)),
    fun _ h1 h2 => absurd h1 (Nat.not_lt.2 (h.ppmaps.trans h2.1))⟩

theorem Chg.refl {c : Region} (s : St) : Chg c s s :=
  ⟨Nat.le_refl _, fun _ _ _ => rfl, Nat.le_refl _, fun _ _ _ => rfl, Nat.le_refl _, fun _ _ _ => rfl, Nat.le_refl _, fun _ _ _ => rfl, List.prefix_refl _,
    List.prefix_refl _, List.prefix_refl _, List.prefix_refl _, List.prefix_refl _, fun _ _ h => h⟩

theorem Chg.trans {c c' : Region} {s s1 s2 : St} (hlen : s.fmaps.length ≤ s.bases.length) (h : Chg c s s1) (h' : Chg c' s1 s2) (hc : c'.On s c) : Chg c s s2 where
  bases := h.bases.trans h'.bases
  b := fun z hz hn => (h'.b z (Nat.lt_of_lt_of_le hz h.bases) fun hc' => hn (hc.b z hz hc')).trans (h.b z hz hn)
  fmaps := h.fmaps.trans h'.fmaps
  fm := fun z hz hn => (h'.fm z (Nat.lt_of_lt_of_le hz h.fmaps) fun hc' => hn (hc.b z (Nat.lt_of_lt_of_le hz hlen) hc')).trans (h.fm z hz hn)
  pmaps := h.pmaps.trans h'.pmaps
  p := fun z hz hn => (h'.p z (Nat.lt_of_lt_of_le hz h.pmaps) fun hc' => hn (hc.p z hz hc')).trans (h.p z hz hn)
  ppmaps := h.ppmaps.trans h'.ppmaps
  q := fun z hz hn => (h'.q z (Nat.lt_of_lt_of_le hz h.ppmaps) fun hc' => hn (hc.q z hz hc')).trans (h.q z hz hn)
  slices := h.slices.trans h'.slices
  libs := h.libs.trans h'.libs
  dts := h.dts.trans h'.dts
  nes := h.nes.trans h'.nes
  exts := h.exts.trans h'.exts
  frags := fun p f hf => h'.frags p f (h.frags p f hf)

theorem Chg.mono {c c' : Region} {s s' : St} (h : Chg c' s s') (hlen : s.fmaps.length ≤ s.bases.length) (hc : c'.On s c) : Chg c s s' :=
  (Chg.refl s).trans hlen h hc

theorem prefix_get {α : Type} {l l' : List α} (h : l <+: l') {i : Nat} {x : α} (hx : l[i]? = some x) : l'[i]? = some x := by
  obtain ⟨t, rfl⟩ := h
  obtain ⟨hi, rfl⟩ := List.getElem?_eq_some_iff.1 hx
  rw [List.getElem?_append_left hi, List.getElem?_eq_getElem hi]

theorem prefix_len {α : Type} {l l' : List α} (h : l <+: l') : l.length ≤ l'.length := h.length_le

/-- Nothing of the one is in the other. -/
structure Region.Apart (r c : Region) : Prop where
  b : ∀ z, r.b z → ¬ c.b z
  p : ∀ z, r.p z → ¬ c.p z
  q : ∀ z, r.q z → ¬ c.q z

theorem Region.apart_none {r : Region} : r.Apart .none := ⟨fun _ _ h => h, fun _ _ h => h, fun _ _ h => h⟩

theorem lt_of_get {α : Type} {l : List α} {i : Nat} {x : α} (h : l[i]? = some x) : i < l.length := (List.getElem?_eq_some_iff.1 h).1

theorem Chg.sameExts {c : Region} {s s' : St} (h : Chg c s s') : SameExts s s' := fun _ de hd => ⟨de, prefix_get h.exts hd, rfl, rfl, rfl⟩

/-- A change elsewhere. -/
theorem Chg.later {E : Env} {c rg : Region} {s s' : St} (h : Chg c s s') (hlen : s.bases.length ≤ s.fmaps.length) (ha : rg.Apart c) : Later E False rg .none s s' where
  b := fun z b hz hb => .inl ⟨(h.b z (lt_of_get hb) (ha.b z hz)).trans hb, h.fm z (Nat.lt_of_lt_of_le (lt_of_get hb) hlen) (ha.b z hz)⟩
  p := fun i m hi hm => (h.p i (lt_of_get hm) (ha.p i hi)).trans hm
  q := fun i m hi hm => (h.q i (lt_of_get hm) (ha.q i hi)).trans hm
  fmaps := h.fmaps
  pmaps := h.pmaps
  ppmaps := h.ppmaps
  slices := h.slices
  exts := h.sameExts
  dts := fun i d hd => ⟨d, prefix_get h.dts hd, rfl, rfl⟩
  types := fun h => h.elim
  refs := fun h => h.elim

theorem D.chg {E : Env} {c rg : Region} {s s' : St} (h : Chg c s s') (hlen : s.bases.length ≤ s.fmaps.length) (ha : rg.Apart c) {loc : String} {v : YNode} {name : String}
    {a : Addr} (hd : D E False rg s loc v name a) : D E False rg s' loc v name a :=
  (hd.later (h.later hlen ha)).mono id (Region.Le.rfl.or Region.none_le)

/-! ## The state as a whole -/

/-- Every base has a map of custom facets of its own, which is empty as long as the base is a reference; registered fragments are where they should be. -/
structure Tied (E : Env) (s : St) : Prop where
  len : s.fmaps.length = s.bases.length
  own : ∀ a b, s.base a = some b → b.facets = some a
  clear : ∀ a b, s.base a = some b → Unk b → s.fmaps[a]? = some []
  dts : ∀ p i, getFragment s p = some (.dataType i) → ∃ d, s.dts[i]? = some d ∧ d.location = p
  nes : ∀ p i, getFragment s p = some (.namedExample i) → ∃ m, s.nes[i]? = some m ∧ FileExamples E p m

theorem LibraryReads.mono {E : Env} {R R' : String → YNode → String → Addr → Prop} (hR : ∀ loc v n a, R loc v n a → R' loc v n a) {l : Lib}
    (h : LibraryReads E R l) : LibraryReads E R' l := by
  obtain ⟨d, h1, h2, h3, h4⟩ := h
  exact ⟨d, h1, Reads.mono h2 fun v m hm => Lists.mono hm fun e x hx => ⟨hx.1, hR _ _ _ _ hx.2⟩,
    Reads.mono h3 fun v m hm => Lists.mono hm fun e x hx => ⟨hx.1, hR _ _ _ _ hx.2⟩, h4⟩

theorem DataTypeReads.mono {E : Env} {R R' : String → YNode → String → Addr → Prop} (hR : ∀ loc v n a, R loc v n a → R' loc v n a) {d : DT}
    (h : DataTypeReads E R d) : DataTypeReads E R' d := by
  obtain ⟨a, h1, h2⟩ := h
  refine ⟨a, h1, ?_⟩
  split at h2
  · rename_i hc
    rw [if_pos hc]
    obtain ⟨h2, t, h3, h4⟩ := h2
    exact ⟨h2, t, h3, hR _ _ _ _ h4⟩
  · rename_i hc
    rw [if_neg hc]
    obtain ⟨doc, h2, h3, h4⟩ := h2
    exact ⟨doc, h2, h3, hR _ _ _ _ h4⟩

/-- The fragments that are in `s` but not in `s0` are what their files say. -/
structure New (E : Env) (ρ : Prop) (rg : Region) (s0 s : St) : Prop where
  libs : ∀ j l, s0.libs.length ≤ j → s.libs[j]? = some l → LibraryReads E (D E ρ rg s) l
  dts : ∀ j d, s0.dts.length ≤ j → s.dts[j]? = some d → DataTypeReads E (D E ρ rg s) d

theorem New.refl {E : Env} {ρ : Prop} {rg : Region} (s : St) : New E ρ rg s s :=
  ⟨fun _ _ h1 h2 => absurd (lt_of_get h2) (Nat.not_lt.2 h1), fun _ _ h1 h2 => absurd (lt_of_get h2) (Nat.not_lt.2 h1)⟩

theorem New.mono {E : Env} {ρ ρ' : Prop} {rg rg' : Region} {s0 s : St} (h : New E ρ rg s0 s) (hρ : ρ → ρ') (hl : rg.Le rg') : New E ρ' rg' s0 s :=
  ⟨fun j l h1 h2 => (LibraryReads.mono fun _ _ _ _ hd => hd.mono hρ hl) (h.libs j l h1 h2),
    fun j l h1 h2 => (DataTypeReads.mono fun _ _ _ _ hd => hd.mono hρ hl) (h.dts j l h1 h2)⟩

/-- No new fragments. -/
theorem New.later {E : Env} {ρ : Prop} {rg n : Region} {s0 s s' : St} (h : New E ρ rg s0 s) (hl : Later E ρ rg n s s') (h1 : s'.libs = s.libs) (h2 : s'.dts = s.dts) :
    New E ρ (rg.or n) s0 s' :=
  ⟨fun j l hj hx => (LibraryReads.mono fun _ _ _ _ hd => hd.later hl) (h.libs j l hj (h1 ▸ hx)),
    fun j l hj hx => (DataTypeReads.mono fun _ _ _ _ hd => hd.later hl) (h.dts j l hj (h2 ▸ hx))⟩

/-- More new fragments. -/
theorem New.trans {E : Env} {ρ : Prop} {rg rg' n : Region} {s0 s s' : St} (h : New E ρ rg s0 s) (hl : Later E ρ rg n s s') (h1 : s.libs <+: s'.libs)
    (h2 : s.dts <+: s'.dts) (h' : New E ρ rg' s s') : New E ρ ((rg.or n).or rg') s0 s' := by
  refine ⟨fun j l hj hx => ?_, fun j l hj hx => ?_⟩
  · by_cases hs : s.libs.length ≤ j
    · exact (LibraryReads.mono fun _ _ _ _ hd => hd.mono id Region.le_right) (h'.libs j l hs hx)
    · have hj' := List.getElem?_eq_getElem (Nat.not_le.1 hs)
      have := prefix_get h1 hj'
      rw [hx] at this; cases this
      exact (LibraryReads.mono fun _ _ _ _ hd => (hd.later hl).mono id Region.le_left) (h.libs j _ hj hj')
  · by_cases hs : s.dts.length ≤ j
    · exact (DataTypeReads.mono fun _ _ _ _ hd => hd.mono id Region.le_right) (h'.dts j l hs hx)
    · have hj' := List.getElem?_eq_getElem (Nat.not_le.1 hs)
      have := prefix_get h2 hj'
      rw [hx] at this; cases this
      exact (DataTypeReads.mono fun _ _ _ _ hd => (hd.later hl).mono id Region.le_left) (h.dts j _ hj hj')

/-- While something is being made, starting in `s0`: only `x` and new cells have changed; what has been made so far is in `rg`. -/
structure Inv (E : Env) (x : Region) (s0 : St) (rg : Region) (s : St) : Prop where
  tied0 : Tied E s0
  tied : Tied E s
  chg : Chg x s0 s
  new : New E False rg s0 s
  le : rg.Le (between s0 s)

/-- What a call has done. -/
structure Call (E : Env) (s s' : St) : Prop where
  tied : Tied E s'
  chg : Chg .none s s'
  new : New E False (between s s') s s'

section
variable {E : Env} {x rg : Region} {s0 s s' : St}

theorem Inv.start (h : Tied E s) : Inv E x s .none s := ⟨h, h, .refl s, .refl s, Region.none_le⟩

theorem Chg.le_between {c : Region} (h0 : rg.Le (between s0 s)) (h : Chg c s s') : rg.Le (between s0 s') :=
  ⟨fun i hi => ⟨(h0.b i hi).1, Nat.lt_of_lt_of_le (h0.b i hi).2 h.bases⟩, fun i hi => ⟨(h0.p i hi).1, Nat.lt_of_lt_of_le (h0.p i hi).2 h.pmaps⟩,
    fun i hi => ⟨(h0.q i hi).1, Nat.lt_of_lt_of_le (h0.q i hi).2 h.ppmaps⟩⟩

theorem Chg.between_le {c : Region} (h : Chg c s0 s) : (between s s').Le (between s0 s') :=
  ⟨fun _ hi => ⟨h.bases.trans hi.1, hi.2⟩, fun _ hi => ⟨h.pmaps.trans hi.1, hi.2⟩, fun _ hi => ⟨h.ppmaps.trans hi.1, hi.2⟩⟩

/-- After a call. -/
theorem Inv.call (h : Inv E x s0 rg s) (hc : Call E s s') : Inv E x s0 (rg.or (between s s')) s' where
  tied0 := h.tied0
  tied := hc.tied
  chg := h.chg.trans (Nat.le_of_eq h.tied0.len) hc.chg (Region.none_le.on _)
  new := (h.new.trans (hc.chg.later (Nat.le_of_eq h.tied.len.symm) Region.apart_none) hc.chg.libs hc.chg.dts hc.new).mono id
    ((Region.le_left.or Region.none_le).or Region.le_right)
  le := (Chg.le_between h.le hc.chg).or h.chg.between_le

theorem Inv.callD (h : Inv E x s0 rg s) (hc : Call E s s') {loc : String} {v : YNode} {name : String} {a : Addr} (hd : D E False rg s loc v name a) :
    D E False (rg.or (between s s')) s' loc v name a := (hd.chg hc.chg (Nat.le_of_eq h.tied.len.symm) Region.apart_none).mono id Region.le_left

/-- After a change of the things being made. -/
theorem Inv.write (h : Inv E x s0 rg s) {c : Region} (hc : Chg c s s') (ht : Tied E s') (hl : s'.libs = s.libs) (hd : s'.dts = s.dts) (ha : rg.Apart c)
    (hx : c.On s0 x) : Inv E x s0 rg s' where
  tied0 := h.tied0
  tied := ht
  chg := h.chg.trans (Nat.le_of_eq h.tied0.len) hc hx
  new := (h.new.later (hc.later (Nat.le_of_eq h.tied.len.symm) ha) hl hd).mono id (Region.Le.rfl.or Region.none_le)
  le := Chg.le_between h.le hc

theorem Inv.writeD (h : Inv E x s0 rg s) {c : Region} (hc : Chg c s s') (ha : rg.Apart c) {loc : String} {v : YNode} {name : String} {a : Addr}
    (hd : D E False rg s loc v name a) : D E False rg s' loc v name a := hd.chg hc (Nat.le_of_eq h.tied.len.symm) ha

end

/-! ## Single steps -/

section
variable {E : Env} {s : St}

/-- One base. -/
abbrev atBase (a : Addr) : Region := ⟨fun z => z = a, fun _ => False, fun _ => False⟩
/-- One property map. -/
abbrev atProps (i : Nat) : Region := ⟨fun _ => False, fun z => z = i, fun _ => False⟩
/-- One pattern property map. -/
abbrev atPats (i : Nat) : Region := ⟨fun _ => False, fun _ => False, fun z => z = i⟩

theorem modify_ne {α : Type} {l : List α} {a z : Nat} {f : α → α} (h : z ≠ a) : (l.modify a f)[z]? = l[z]? := by
  rw [List.getElem?_modify]; simp [Ne.symm h]

theorem chg_updBase (a : Addr) (f : Base → Base) : Chg (atBase a) s { s with bases := s.bases.modify a f } where
  bases := by simp
  b := fun z _ hn => modify_ne hn
  fmaps := Nat.le_refl _
  fm := fun _ _ _ => rfl
  pmaps := Nat.le_refl _
  p := fun _ _ _ => rfl
  ppmaps := Nat.le_refl _
  q := fun _ _ _ => rfl
  slices := List.prefix_refl _
  libs := List.prefix_refl _
  dts := List.prefix_refl _
  nes := List.prefix_refl _
  exts := List.prefix_refl _
  frags := fun _ _ h => h

theorem chg_setFacet (a : Addr) (f : OMap GoVal → OMap GoVal) : Chg (atBase a) s { s with fmaps := s.fmaps.modify a f } where
  bases := Nat.le_refl _
  b := fun _ _ _ => rfl
  fmaps := by simp
  fm := fun z _ hn => modify_ne hn
  pmaps := Nat.le_refl _
  p := fun _ _ _ => rfl
  ppmaps := Nat.le_refl _
  q := fun _ _ _ => rfl
  slices := List.prefix_refl _
  libs := List.prefix_refl _
  dts := List.prefix_refl _
  nes := List.prefix_refl _
  exts := List.prefix_refl _
  frags := fun _ _ h => h

theorem chg_setProp (i : Nat) (f : OMap Property → OMap Property) : Chg (atProps i) s { s with pmaps := s.pmaps.modify i f } where
  bases := Nat.le_refl _
  b := fun _ _ _ => rfl
  fmaps := Nat.le_refl _
  fm := fun _ _ _ => rfl
  pmaps := by simp
  p := fun z _ hn => modify_ne hn
  ppmaps := Nat.le_refl _
  q := fun _ _ _ => rfl
  slices := List.prefix_refl _
  libs := List.prefix_refl _
  dts := List.prefix_refl _
  nes := List.prefix_refl _
  exts := List.prefix_refl _
  frags := fun _ _ h => h

theorem chg_setPatProp (i : Nat) (f : OMap PatternProperty → OMap PatternProperty) : Chg (atPats i) s { s with ppmaps := s.ppmaps.modify i f } where
  bases := Nat.le_refl _
  b := fun _ _ _ => rfl
  fmaps := Nat.le_refl _
  fm := fun _ _ _ => rfl
  pmaps := Nat.le_refl _
  p := fun _ _ _ => rfl
  ppmaps := by simp
  q := fun z _ hn => modify_ne hn
  slices := List.prefix_refl _
  libs := List.prefix_refl _
  dts := List.prefix_refl _
  nes := List.prefix_refl _
  exts := List.prefix_refl _
  frags := fun _ _ h => h

theorem chg_newProps (m : OMap Property) : Chg .none s { s with pmaps := s.pmaps ++ [m] } where
  bases := Nat.le_refl _
  b := fun _ _ _ => rfl
  fmaps := Nat.le_refl _
  fm := fun _ _ _ => rfl
  pmaps := by simp
  p := fun z hz _ => List.getElem?_append_left hz
  ppmaps := Nat.le_refl _
  q := fun _ _ _ => rfl
  slices := List.prefix_refl _
  libs := List.prefix_refl _
  dts := List.prefix_refl _
  nes := List.prefix_refl _
  exts := List.prefix_refl _
  frags := fun _ _ h => h

theorem chg_newPatProps (m : OMap PatternProperty) : Chg .none s { s with ppmaps := s.ppmaps ++ [m] } where
  bases := Nat.le_refl _
  b := fun _ _ _ => rfl
  fmaps := Nat.le_refl _
  fm := fun _ _ _ => rfl
  pmaps := Nat.le_refl _
  p := fun _ _ _ => rfl
  ppmaps := by simp
  q := fun z hz _ => List.getElem?_append_left hz
  slices := List.prefix_refl _
  libs := List.prefix_refl _
  dts := List.prefix_refl _
  nes := List.prefix_refl _
  exts := List.prefix_refl _
  frags := fun _ _ h => h

/-- Other fields may be extended. -/
theorem chg_other {s' : St} (hb : s'.bases = s.bases) (hf : s'.fmaps = s.fmaps) (hp : s'.pmaps = s.pmaps) (hq : s'.ppmaps = s.ppmaps) (hs : s.slices <+: s'.slices)
    (hl : s.libs <+: s'.libs) (hd : s.dts <+: s'.dts) (hn : s.nes <+: s'.nes) (he : s.domainExts <+: s'.domainExts)
    (hfr : ∀ p f, getFragment s p = some f → getFragment s' p = some f) : Chg .none s s' :=
  ⟨by rw [hb], fun _ _ _ => by rw [hb], by rw [hf], fun _ _ _ => by rw [hf], by rw [hp], fun _ _ _ => by rw [hp], by rw [hq], fun _ _ _ => by rw [hq], hs, hl, hd,
    hn, he, hfr⟩

theorem Tied.same {s' : St} (h : Tied E s) (hb : s'.bases = s.bases) (hf : s'.fmaps = s.fmaps) (hd : s'.dts = s.dts) (hn : s.nes <+: s'.nes)
    (hfr : s'.fragments = s.fragments) : Tied E s' where
  len := by rw [hb, hf]; exact h.len
  own := by unfold St.base; rw [hb]; exact h.own
  clear := by unfold St.base; rw [hb, hf]; exact h.clear
  dts := by unfold getFragment; rw [hfr, hd]; exact h.dts
  nes := by
    unfold getFragment; rw [hfr]
    intro p i hi
    obtain ⟨m, h1, h2⟩ := h.nes p i hi
    exact ⟨m, prefix_get hn h1, h2⟩

theorem base_modify {a z : Addr} {f : Base → Base} {b : Base} (h : ({ s with bases := s.bases.modify a f } : St).base z = some b) :
    (z = a ∧ ∃ b0, s.base a = some b0 ∧ b = f b0) ∨ (z ≠ a ∧ s.base z = some b) := by
  unfold St.base at *
  by_cases hz : z = a
  · subst hz
    simp only [List.getElem?_modify_eq] at h
    cases h' : s.bases[z]? with
    | none => rw [h'] at h; simp at h
    | some b0 => rw [h'] at h; cases h; exact .inl ⟨rfl, b0, rfl, rfl⟩
  · rw [modify_ne hz] at h; exact .inr ⟨hz, h⟩

theorem base_modify_eq {a : Addr} {f : Base → Base} {b : Base} (h : s.base a = some b) : ({ s with bases := s.bases.modify a f } : St).base a = some (f b) := by
  unfold St.base at *; simp [h]

theorem Tied.updBase (h : Tied E s) {a : Addr} {f : Base → Base} (hf : ∀ b, s.base a = some b → (f b).facets = b.facets ∧ (Unk (f b) → s.fmaps[a]? = some [])) :
    Tied E { s with bases := s.bases.modify a f } where
  len := by simp [h.len]
  own := fun z b hb => by
    rcases base_modify hb with ⟨rfl, b0, h1, rfl⟩ | ⟨_, h1⟩
    · rw [(hf b0 h1).1]; exact h.own _ _ h1
    · exact h.own _ _ h1
  clear := fun z b hb hu => by
    rcases base_modify hb with ⟨rfl, b0, h1, rfl⟩ | ⟨_, h1⟩
    · exact (hf b0 h1).2 hu
    · exact h.clear _ _ h1 hu
  dts := h.dts
  nes := h.nes

theorem Tied.setFacet (h : Tied E s) {a : Addr} {f : OMap GoVal → OMap GoVal} (hu : ∀ b, s.base a = some b → ¬ Unk b) :
    Tied E { s with fmaps := s.fmaps.modify a f } where
  len := by simp [h.len]
  own := h.own
  clear := fun z b hb hz => by
    by_cases hza : z = a
    · subst hza; exact absurd hz (hu b hb)
    · show (s.fmaps.modify a f)[z]? = _
      rw [modify_ne hza]; exact h.clear z b hb hz
  dts := h.dts
  nes := h.nes

end

end GoRaml.Read
