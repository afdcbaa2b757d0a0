import Verif.Lemmas.ReadFrag
import Verif.Lemmas.LoadEnds

/-!
# Decoding fidelity: what resolution changes
-/

namespace GoRaml.Read

open GoRaml GoRaml.Spec GoRaml.Load

section
variable {E : Env} {ρ : Prop} {s s1 s2 s' : St} {rg rg' n n' n1 n2 : Region} {z : Addr} {b : Base}

/-! ## References stay -/

theorem lookupUsed_chg (h : s.libs <+: s'.libs) {uses : OMap (String × Option Nat)} {x y : String} {sel : Lib → OMap Addr} {a : Addr}
    (hr : lookupUsed s uses sel x y = .ok a) : lookupUsed s' uses sel x y = .ok a := by
  unfold lookupUsed at hr ⊢
  split at hr
  · cases hr
  split at hr
  · cases hr
  rename_i l hl
  obtain ⟨i, h1, hi⟩ := Option.bind_eq_some_iff.1 hl
  subst h1
  simp only [Option.bind_some, prefix_get h hi]
  exact hr

theorem getReferenced_chg (hl : s.libs <+: s'.libs) (hd : s.dts <+: s'.dts) (hf : ∀ p f, getFragment s p = some f → getFragment s' p = some f) {t loc : String}
    {sel : Lib → OMap Addr} {a : Addr} (h : getReferenced s sel t loc = .ok a) : getReferenced s' sel t loc = .ok a := by
  unfold getReferenced at h ⊢
  cases hfr : getFragment s loc with
  | none => rw [hfr] at h; cases h
  | some f =>
    rw [hfr] at h
    rw [hf _ _ hfr]
    cases f with
    | namedExample i => cases h
    | library i =>
      simp only at h ⊢
      cases hi : s.libs[i]? with
      | none => rw [hi] at h; cases h
      | some l =>
        rw [hi] at h
        rw [prefix_get hl hi]
        simp only at h ⊢
        unfold Lib.getReference at h ⊢
        simp only at h ⊢
        split at h
        · rename_i hc; rw [if_pos hc]; exact h
        · rename_i hc; rw [if_neg hc]
          split at h
          · exact h
          · exact lookupUsed_chg hl h
    | dataType i =>
      simp only at h ⊢
      cases hi : s.dts[i]? with
      | none => rw [hi] at h; cases h
      | some l =>
        rw [hi] at h
        rw [prefix_get hd hi]
        simp only at h ⊢
        unfold DT.getReference at h ⊢
        simp only at h ⊢
        split at h
        · rename_i hc; rw [if_pos hc]; exact h
        · rename_i hc; rw [if_neg hc]; exact lookupUsed_chg hl h

/-! ## One thing after the other -/

/-- A change elsewhere, while references are resolved; types stay what they are. -/
theorem Chg.laterT {c : Region} (h : Chg c s s') (hlen : s.bases.length ≤ s.fmaps.length) (ha : rg.Apart c)
    (ht : ∀ z b, c.b z → s.base z = some b → Typed b → ∃ b', s'.base z = some b' ∧ Typed b' ∧ b'.type = b.type) : Later E True rg .none s s' where
  b := fun z b hz hb => .inl ⟨(h.b z (lt_of_get hb) (ha.b z hz)).trans hb, h.fm z (Nat.lt_of_lt_of_le (lt_of_get hb) hlen) (ha.b z hz)⟩
  p := fun i m hi hm => (h.p i (lt_of_get hm) (ha.p i hi)).trans hm
  q := fun i m hi hm => (h.q i (lt_of_get hm) (ha.q i hi)).trans hm
  fmaps := h.fmaps
  pmaps := h.pmaps
  ppmaps := h.ppmaps
  slices := h.slices
  exts := h.sameExts
  dts := fun i d hd => ⟨d, prefix_get h.dts hd, rfl, rfl⟩
  types := fun _ z b hb hty => by
    by_cases hc : c.b z
    · exact ht z b hc hb hty
    · exact ⟨b, (h.b z (lt_of_get hb) hc).trans hb, hty, rfl⟩
  refs := fun _ _ _ _ hr => getReferenced_chg h.libs h.dts h.frags hr

theorem Later.refl (s : St) : Later E ρ rg .none s s where
  b := fun _ _ _ hb => .inl ⟨hb, rfl⟩
  p := fun _ _ _ h => h
  q := fun _ _ _ h => h
  fmaps := Nat.le_refl _
  pmaps := Nat.le_refl _
  ppmaps := Nat.le_refl _
  slices := List.prefix_refl _
  exts := .refl s
  dts := fun _ d h => ⟨d, h, rfl, rfl⟩
  types := fun _ _ b hb ht => ⟨b, hb, ht, rfl⟩
  refs := fun _ _ _ _ h => h

theorem ResolvedTo.carry {b' : Base} {facets : Option (List YNode)} (hc : Carry s1 s2 (D E True n s1 b.location) (D E True n' s2 b.location))
    (hm : ∀ sh, b'.shape = some sh → SameMaps s1 s2 sh) (hf : s2.facetMap b'.facets = s1.facetMap b'.facets) (hl : Later E True rg n2 s1 s2)
    (h : ResolvedTo E n s1 b b' facets) : ResolvedTo E n' s2 b b' facets := by
  unfold ResolvedTo at *
  cases hlink : b.link with
  | some i =>
    simp only [hlink] at h ⊢
    obtain ⟨h1, h2, d, l, lb, h3, h4, h5, h6, h7⟩ := h
    obtain ⟨d', k1, _, k3⟩ := hl.dts _ _ h3
    obtain ⟨lb', m1, m2, m3⟩ := hl.types trivial _ _ h5 h6
    exact ⟨h1, h2, d', l, lb', k1, k3.trans h4, m1, m2, by rw [m3]; exact Has.carry hc hm hf h7⟩
  | none =>
    simp only [hlink] at h ⊢
    by_cases hcomp : b.type = "composite"
    · rw [if_pos hcomp] at h ⊢
      obtain ⟨h1, p, pb, h2, h3, h4, h5⟩ := h
      obtain ⟨pb', m1, m2, m3⟩ := hl.types trivial _ _ h3 h4
      exact ⟨h1, p, pb', by rw [hl.sliceHead h2]; exact h2, m1, m2, by rw [m3]; exact Has.carry hc hm hf h5⟩
    · rw [if_neg hcomp] at h ⊢
      obtain ⟨tree, h1, h2⟩ := h
      exact ⟨tree, h1, TreeHas.carry hc hm hf (fun t a hr => hl.refs trivial _ _ _ hr) (hl.types trivial) tree h2⟩

theorem ResolvedTo.mono {b' : Base} {facets : Option (List YNode)} (hn : n.Le n') (h : ResolvedTo E n s b b' facets) : ResolvedTo E n' s b b' facets :=
  ResolvedTo.carry (rg := .none) (.refl fun _ _ _ hd => hd.mono id hn) (fun _ _ _ _ => ⟨rfl, rfl⟩) rfl (Later.refl s) h

theorem Resolved.mono (hn : n.Le n') (h : Resolved E n s z b) : Resolved E n' s z b := by
  obtain ⟨facets, b', h1, h2, h3, h4, h5, h6⟩ := h
  exact ⟨facets, b', h1, h2, h3, h4.mono hn, h5, ResolvedTo.mono hn h6⟩

theorem Later.mono (h : Later E ρ rg n s s') (hrg : rg'.Le rg) (hn : n.Le n') : Later E ρ rg' n' s s' :=
  { h with
    b := fun z b hz hb => (h.b z b (hrg.b z hz) hb).imp id fun ⟨h1, h2, h3⟩ => ⟨h1, h2, Resolved.mono hn h3⟩
    p := fun i m hi => h.p i m (hrg.p i hi)
    q := fun i m hi => h.q i m (hrg.q i hi) }

/-- Parts stay described, and keep their `required`. -/
theorem D.carry {loc : String} (hl : Later E ρ rg n s s') : Carry s s' (D E ρ rg s loc) (D E ρ (rg.or n) s' loc) := fun v m a hd => by
  refine ⟨hd.later hl, fun b hb => ?_⟩
  obtain ⟨b', hb', hf⟩ := hd.foot
  rw [hb] at hb'; cases hb'
  rcases hl.b a b hf.at_ hb with ⟨k, _⟩ | ⟨_, _, _, b'', _, k, k', _⟩
  · exact ⟨b, k, rfl⟩
  · exact ⟨b'', k, k'.required⟩

theorem Resolved.later (ht : Tied E s1) (h : Resolved E n1 s1 z b) (hl : Later E True rg n2 s1 s2) (hn : n1.Le rg) (hz : rg.b z) : Resolved E (n1.or n2) s2 z b := by
  obtain ⟨facets, b', h1, h2, h3, h4, h5, h6⟩ := h
  have hl1 := hl.mono hn (.rfl : n2.Le n2)
  rcases hl.b z b' hz h2 with ⟨k1, k2⟩ | ⟨_, hu, _⟩
  · refine ⟨facets, b', h1, k1, h3, (h4.later hl1).mono Region.le_left, h5, ?_⟩
    exact ResolvedTo.carry (D.carry hl1) (fun sh hsh => MapsIn.same (by rw [← hsh]; exact h4) hl1) (facetMap_eq (ht.own _ _ h2) k2) hl h6
  · exact absurd h5 hu.not_typed

theorem Later.trans (ht : Tied E s1) (h : Later E True rg n1 s s1) (h' : Later E True rg' n2 s1 s2) (hrg : rg.On s rg') (hn : n1.Le rg') : Later E True rg (n1.or n2) s s2 where
  b := fun z b hz hb => by
    have hz' := hrg.b z (lt_of_get hb) hz
    rcases h.b z b hz hb with ⟨k1, k2⟩ | ⟨_, hu, hr⟩
    · rcases h'.b z b hz' k1 with ⟨m1, m2⟩ | ⟨_, hu, hr⟩
      · exact .inl ⟨m1, m2.trans k2⟩
      · exact .inr ⟨trivial, hu, Resolved.mono Region.le_right hr⟩
    · exact .inr ⟨trivial, hu, Resolved.later ht hr h' hn hz'⟩
  p := fun i m hi hm => h'.p i m (hrg.p i (lt_of_get hm) hi) (h.p i m hi hm)
  q := fun i m hi hm => h'.q i m (hrg.q i (lt_of_get hm) hi) (h.q i m hi hm)
  fmaps := h.fmaps.trans h'.fmaps
  pmaps := h.pmaps.trans h'.pmaps
  ppmaps := h.ppmaps.trans h'.ppmaps
  slices := h.slices.trans h'.slices
  exts := h.exts.trans h'.exts
  dts := fun i d hd => by
    obtain ⟨d1, k1, k2, k3⟩ := h.dts i d hd
    obtain ⟨d2, m1, m2, m3⟩ := h'.dts i d1 k1
    exact ⟨d2, m1, m2.trans k2, m3.trans k3⟩
  types := fun hρ z b hb hty => by
    obtain ⟨b1, k1, k2, k3⟩ := h.types hρ z b hb hty
    obtain ⟨b2, m1, m2, m3⟩ := h'.types hρ z b1 k1 k2
    exact ⟨b2, m1, m2, m3.trans k3⟩
  refs := fun hρ t loc a hr => h'.refs hρ t loc a (h.refs hρ t loc a hr)

/-! ## A piece of resolution -/

/-- Everything but some bases. -/
def allBut (X : Addr → Prop) : Region := ⟨fun z => ¬ X z, fun _ => True, fun _ => True⟩

/-- What a piece of resolution does, except to the bases in `X`. -/
structure Solved (E : Env) (X : Addr → Prop) (s s' : St) : Prop where
  tied : Tied E s'
  bases : s.bases.length ≤ s'.bases.length
  later : Later E True (allBut X) (since s) s s'
  new : New E True (since s) s s'
  libs : s.libs <+: s'.libs
  dts : s.dts <+: s'.dts

variable {X X' : Addr → Prop}

theorem Solved.since_le (h : Solved E X s s') : (since s').Le (since s) :=
  ⟨fun _ hi => h.bases.trans hi, fun _ hi => h.later.pmaps.trans hi, fun _ hi => h.later.ppmaps.trans hi⟩

theorem since_le_allBut (hX : ∀ z, X z → z < s.bases.length) : (since s).Le (allBut X) :=
  ⟨fun _ hi hx => absurd (hX _ hx) (Nat.not_lt.2 hi), fun _ _ => trivial, fun _ _ => trivial⟩

theorem Solved.refl (h : Tied E s) : Solved E X s s :=
  ⟨h, Nat.le_refl _, (Later.refl s).mono .rfl Region.none_le, .refl s, List.prefix_refl _, List.prefix_refl _⟩

theorem Solved.trans (h : Solved E X s s1) (h' : Solved E X' s1 s2) (hX : ∀ z, X' z → X z ∧ z < s.bases.length) : Solved E X s s2 where
  tied := h'.tied
  bases := h.bases.trans h'.bases
  later := (Later.trans h.tied h.later h'.later ⟨fun z _ hz hx => hz (hX z hx).1, fun _ _ h => h, fun _ _ h => h⟩ (since_le_allBut fun z hz => (hX z hz).2)).mono .rfl
    (Region.Le.rfl.or h.since_le)
  new := (h.new.trans (h'.later.mono (since_le_allBut fun z hz => (hX z hz).2) .rfl) h'.libs h'.dts h'.new).mono id ((Region.Le.rfl.or h.since_le).or h.since_le)
  libs := h.libs.trans h'.libs
  dts := h.dts.trans h'.dts

/-- What resolution makes of a reference. -/
theorem Solved.close {a : Addr} (h : Solved E (· = a) s s') (hb : s.base a = some b) (hr : Unk b ∧ Resolved E (since s) s' a b) : Solved E (fun _ => False) s s' :=
  { h with
    later := { h.later with
      b := fun z bz _ hbz => by
        by_cases hz : z = a
        · subst hz
          rw [hb] at hbz; cases hbz
          exact .inr ⟨trivial, hr⟩
        · exact h.later.b z bz hz hbz } }

/-- After something new. -/
theorem Solved.fresh {m : Addr} (ht : Tied E s) (hc : Chg .none s s1) (ht1 : Tied E s1) (hl : s1.libs = s.libs) (hd : s1.dts = s.dts) (h : Solved E (· = m) s1 s2)
    (hm : s.bases.length ≤ m) : Solved E (fun _ => False) s s2 := by
  have hl1 : Later E True (allBut fun _ => False) .none s s1 := hc.laterT (Nat.le_of_eq ht.len.symm) Region.apart_none fun _ _ h => h.elim
  have hsl : (since s1).Le (since s) := ⟨fun _ hi => hc.bases.trans hi, fun _ hi => hc.pmaps.trans hi, fun _ hi => hc.ppmaps.trans hi⟩
  refine ⟨h.tied, hc.bases.trans h.bases, (Later.trans ht1 hl1 h.later ⟨fun z hz _ e => ?_, fun _ _ h => h, fun _ _ h => h⟩ Region.none_le).mono .rfl (Region.none_le.or hsl), ?_,
    hl ▸ h.libs, hd ▸ h.dts⟩
  · subst e; exact absurd hz (Nat.not_lt.2 hm)
  · refine ⟨fun j l h1 h2 => ?_, fun j l h1 h2 => ?_⟩
    · exact (h.new.mono id hsl).libs j l (hl ▸ h1) h2
    · exact (h.new.mono id hsl).dts j l (hd ▸ h1) h2

/-- A step of the decoder. -/
theorem Call.solved (ht : Tied E s) (h : Call E s s') : Solved E (fun _ => False) s s' where
  tied := h.tied
  bases := h.chg.bases
  later := (h.chg.laterT (Nat.le_of_eq ht.len.symm) Region.apart_none fun _ _ h => h.elim).mono .rfl Region.none_le
  new := h.new.mono (fun h => h.elim) between_le_since
  libs := h.chg.libs
  dts := h.chg.dts

end

end GoRaml.Read
