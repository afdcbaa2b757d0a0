import Verif.Lemmas.MeanAll
import Verif.Lemmas.KinStay
import Verif.Lemmas.VerdictAll

/-!
# What the types of a straight model mean: the whole model is unwrapped
-/

namespace GoRaml.Mean

open GoRaml GoRaml.Spec

variable {s0 s s' : St} {a t : Addr} {K : Whole.Par}

/-- No type is being unwrapped. -/
abbrev idle : Addr → Prop := fun _ => False

/-- What the loops keep. -/
structure Held (K : Whole.Par) (s0 s : St) : Prop where
  inv : Inv s0 idle s
  wf : Whole.Wf K s
  libs : s.libs = s0.libs

/-- A successful run keeps this and unwraps the types `D`. -/
def Stay (K : Whole.Par) (s0 : St) (D : Addr → Prop) (m : M St Unit) (s : St) : Prop :=
  ∀ s', m s = (.ok (), s') → Held K s0 s' ∧ (∀ x, Unw s x → Unw s' x) ∧ ∀ x, D x → Unw s' x

theorem Stay.congr {D : Addr → Prop} {m m' : M St Unit} (e : m' s = m s) (h : Stay K s0 D m s) : Stay K s0 D m' s := fun s' hr => h s' (e ▸ hr)

theorem Stay.weaken {D D' : Addr → Prop} {m : M St Unit} (h : Stay K s0 D m s) (hd : ∀ x, D' x → D x) : Stay K s0 D' m s := fun s' hr => by
  obtain ⟨h1, h2, h3⟩ := h s' hr
  exact ⟨h1, h2, fun x hx => h3 x (hd x hx)⟩

theorem Stay.tryEach {α : Type} {f : α → M St Unit} {D : α → Addr → Prop} : ∀ l s, (∀ x ∈ l, ∀ s, Held K s0 s → Stay K s0 (D x) (f x) s) → Held K s0 s →
    Stay K s0 (fun a => ∃ x ∈ l, D x a) (M.tryEach f l) s
  | [], s, _, hw => fun s' hr => by cases hr; exact ⟨hw, fun _ h => h, fun x ⟨y, hy, _⟩ => by cases hy⟩
  | x :: xs, s, h, hw => fun s' hr => by
    obtain ⟨s1, h1, h2⟩ := Kin.tryEach_ok hr
    obtain ⟨w1, k1, d1⟩ := h x (by simp) s hw s1 h1
    obtain ⟨w2, k2, d2⟩ := Stay.tryEach xs s1 (fun y hy => h y (by simp [hy])) w1 s' h2
    refine ⟨w2, fun y hy => k2 y (k1 y hy), fun y ⟨z, hz, hd⟩ => ?_⟩
    rcases List.mem_cons.1 hz with rfl | hz
    · exact k2 y (d1 y hd)
    · exact d2 y ⟨z, hz, hd⟩

theorem omap_set_same {α : Type} {m : OMap α} {k : String} {v : α} (h : (m.map (·.1)).Nodup) (he : (k, v) ∈ m) : OMap.set m k v = m := by
  induction m with
  | nil => cases he
  | cons y m ih =>
    obtain ⟨k', v'⟩ := y
    simp only [List.map_cons, List.nodup_cons] at h
    unfold OMap.set
    rcases List.mem_cons.1 he with e | he
    · cases e; simp
    · have hne : k' ≠ k := fun e => h.1 (e ▸ List.mem_map.2 ⟨_, he, rfl⟩)
      rw [if_neg hne, ih h.2 he]

theorem getBase_ok {u : Base} (h : Heap.getBase a s = (.ok u, s')) : s' = s := by
  unfold Heap.getBase at h
  split at h <;> cases h
  rfl

theorem setType_same {c : Sect} {i : Nat} {l : Lib} {k : String} {us : Addr} (hl : s.libs[i]? = some l) (hn : ((c.of l).map (·.1)).Nodup) (hka : (k, us) ∈ c.of l) :
    setType c i k us s = (.ok (), s) := by
  unfold setType M.modify
  simp only
  rw [modify_same fun x hx => ?_]
  rw [hl] at hx
  cases hx
  cases c
  · show { l with types := OMap.set l.types k us } = l
    rw [show OMap.set l.types k us = l.types from omap_set_same hn hka]
  · show { l with annotationTypes := OMap.set l.annotationTypes k us } = l
    rw [show OMap.set l.annotationTypes k us = l.annotationTypes from omap_set_same hn hka]

section
variable (S : Setup s0) (hone : Kin.OneEach s0)
include S

include hone in
theorem unwrapType_stay {n : Nat} {c : Sect} {i : Nat} {l : Lib} {loc : String} {ka : String × Addr} (hw : Held K s0 s) (hl : s0.libs[i]? = some l) (hka : ka ∈ c.of l) :
    Stay K s0 (fun x => x = ka.2) (unwrapType n c i loc ka) s := fun s' hr => by
  have hls : s.libs[i]? = some l := by rw [hw.libs]; exact hl
  have hin := hw.wf.lib l (List.mem_of_getElem? hls)
  have ha : IsBase s ka.2 := by
    cases c
    · exact hin.types _ hka
    · exact hin.annotationTypes _ hka
  have hk : ∀ l, s.libs[i]? = some l → ka.1 ∈ Whole.names c l := fun l' h => by
    rw [hls] at h; cases h
    exact List.mem_map_of_mem hka
  have hs := Whole.unwrapType_sound (n := n) (location := loc) hw.wf ha hk
  unfold Whole.Sound Whole.Safe at hs
  rw [hr] at hs
  obtain ⟨hs1, _, _⟩ := hs
  unfold unwrapType at hr
  obtain ⟨us, s1, e1, hr1⟩ := M.bind_ok.1 hr
  obtain ⟨_, s2, e2, hr2⟩ := M.bind_ok.1 hr1
  obtain ⟨u, s3, e3, hr3⟩ := M.bind_ok.1 hr2
  clear hr hr1 hr2
  have f1 := Whole.unwrap_fine n ka.2 s hw.wf ha
  unfold Whole.Fine Whole.Safe at f1
  rw [e1] at f1
  have hl1 : s1.libs = s0.libs := f1.2.1.libs.trans hw.libs
  obtain ⟨b, hb⟩ := Whole.isBase_base ha
  obtain ⟨rfl, g1, g2, g3⟩ := unwrap_goes S n hw.inv (hw.inv.base0 hb) (fun _ h => h.elim) e1
  have e3' := getBase_ok e3
  subst e3'
  have hset : s3 = s1 := by
    have := setType_same (c := c) (us := ka.2) (hl1 ▸ hl) (hone l (List.mem_of_getElem? hl) c) hka
    rw [e2] at this
    cases this
    rfl
  subst hset
  have hfin : s'.bases = s3.bases ∧ s'.slices = s3.slices ∧ s'.dts = s3.dts ∧ s'.pmaps = s3.pmaps ∧ s'.ppmaps = s3.ppmaps ∧ s'.libs = s3.libs := by
    cases c
    · cases hr3; exact ⟨rfl, rfl, rfl, rfl, rfl, rfl⟩
    · cases hr3; exact ⟨rfl, rfl, rfl, rfl, rfl, rfl⟩
  have hu : ∀ x, Unw s3 x → Unw s' x := fun x ⟨b, h1, h2⟩ => ⟨b, by unfold St.base at h1 ⊢; rw [hfin.1]; exact h1, h2⟩
  exact ⟨⟨g1.same hfin.1 hfin.2.1 hfin.2.2.1 hfin.2.2.2.1 hfin.2.2.2.2.1, hs1, hfin.2.2.2.2.2.trans hl1⟩, fun x hx => hu x (g3 x hx), fun x hx => hx ▸ hu _ g2⟩

include hone in
theorem unwrapTypes_stay {n : Nat} {c : Sect} {i : Nat} {l : Lib} (hw : Held K s0 s) (hl : s0.libs[i]? = some l) :
    Stay K s0 (fun x => ∃ e ∈ c.of l, x = e.2) (unwrapTypes n c i l) s :=
  Stay.tryEach (D := fun e x => x = e.2) _ _ (fun _ hka _ wt => unwrapType_stay S hone wt hl hka) hw

include hone in
theorem unwrapLibrary_stay {n : Nat} {i : Nat} {l : Lib} (hw : Held K s0 s) (hl : s0.libs[i]? = some l) :
    Stay K s0 (fun x => ∃ c : Sect, ∃ e ∈ c.of l, x = e.2) (unwrapLibrary n i l) s := fun s' hr => by
  obtain ⟨s1, h1, h2⟩ := Kin.tryEach_ok (f := id) (xs := [unwrapTypes n .types i l]) hr
  obtain ⟨s2, h3, h4⟩ := Kin.tryEach_ok (f := id) (xs := []) h2
  have h4 : s2 = s' := by cases h4; rfl
  subst h4
  obtain ⟨w1, k1, d1⟩ := unwrapTypes_stay S hone hw hl s1 h1
  obtain ⟨w2, k2, d2⟩ := unwrapTypes_stay S hone w1 hl s2 h3
  refine ⟨w2, fun x h => k2 x (k1 x h), fun x ⟨c, h⟩ => ?_⟩
  cases c
  · exact d2 x h
  · exact k2 x (d1 x h)

theorem unwrapDataType_stay {n : Nat} {i : Nat} {d : DT} (hw : Held K s0 s) (hd : s0.dts[i]? = some d) :
    Stay K s0 (fun x => d.shape = some x) (unwrapDataType n i d) s := fun s' hr => by
  have hds : s.dts[i]? = some d := by rw [hw.inv.dts]; exact hd
  have hdt := hw.wf.dt d (List.mem_of_getElem? hds)
  have hs := Whole.unwrapDataType_sound (n := n) (i := i) hw.wf hdt
  unfold Whole.Sound Whole.Safe at hs
  rw [hr] at hs
  obtain ⟨hs1, _, _⟩ := hs
  obtain ⟨a, ha, hb⟩ := hdt.shape
  unfold unwrapDataType at hr
  rw [ha] at hr
  obtain ⟨us, s1, e1, hr1⟩ := M.bind_ok.1 hr
  obtain ⟨_, s2, e2, hr2⟩ := M.bind_ok.1 hr1
  obtain ⟨u, s3, e3, hr3⟩ := M.bind_ok.1 hr2
  clear hr hr1 hr2
  have f1 := Whole.unwrap_fine n a s hw.wf hb
  unfold Whole.Fine Whole.Safe at f1
  rw [e1] at f1
  have hl1 : s1.libs = s0.libs := f1.2.1.libs.trans hw.libs
  obtain ⟨b, hb'⟩ := Whole.isBase_base hb
  obtain ⟨rfl, g1, g2, g3⟩ := unwrap_goes S n hw.inv (hw.inv.base0 hb') (fun _ h => h.elim) e1
  have e3' := getBase_ok e3
  subst e3'
  have hset : s3 = s1 := by
    have hm : (s1.dts.modify i fun d => { d with shape := some us }) = s1.dts := by
      refine modify_same fun x hx => ?_
      rw [g1.dts, hd] at hx
      cases hx
      show { d with shape := some us } = d
      rw [← ha]
    unfold M.modify at e2
    simp only [Prod.mk.injEq, true_and] at e2
    rw [← e2, hm]
  subst hset
  cases hr3
  refine ⟨⟨g1.same rfl rfl rfl rfl rfl, hs1, hl1⟩, g3, fun x hx => ?_⟩
  rw [ha] at hx
  cases hx
  exact g2

/-- The types of a fragment. -/
def typesIn (s0 : St) : FragRef → Addr → Prop
  | .library i => fun x => ∃ l, s0.libs[i]? = some l ∧ ∃ c : Sect, ∃ e ∈ c.of l, x = e.2
  | .dataType i => fun x => ∃ d, s0.dts[i]? = some d ∧ d.shape = some x
  | .namedExample _ => fun _ => False

include hone in
theorem unwrapFragment_stay {n : Nat} {f : FragRef} (hw : Held K s0 s) : Stay K s0 (typesIn s0 f) (unwrapFragment n f) s := by
  cases f with
  | library i =>
    cases hl : s.libs[i]? with
    | none => exact Stay.congr (m := M.panic "nil pointer dereference") (by simp only [unwrapFragment, hl]; rfl) fun s' hr => by cases hr
    | some l =>
      have h0 : s0.libs[i]? = some l := by rw [← hw.libs]; exact hl
      refine Stay.congr (m := unwrapLibrary n i l) (by simp only [unwrapFragment, hl]) ((unwrapLibrary_stay S hone hw h0).weaken fun x ⟨l', h1, h2⟩ => ?_)
      rw [h0] at h1
      cases h1
      exact h2
  | dataType i =>
    cases hl : s.dts[i]? with
    | none => exact Stay.congr (m := M.panic "nil pointer dereference") (by simp only [unwrapFragment, hl]; rfl) fun s' hr => by cases hr
    | some d =>
      have h0 : s0.dts[i]? = some d := by rw [← hw.inv.dts]; exact hl
      refine Stay.congr (m := unwrapDataType n i d) (by simp only [unwrapFragment, hl]) ((unwrapDataType_stay S hw h0).weaken fun x ⟨l', h1, h2⟩ => ?_)
      rw [h0] at h1
      cases h1
      exact h2
  | namedExample i => exact fun s' hr => by cases hr; exact ⟨hw, fun _ h => h, fun _ h => h.elim⟩

include hone in
theorem unwrapFragments_stay {n : Nat} {fs : List FragRef} (hw : Held K s0 s) : Stay K s0 (fun x => ∃ f ∈ fs, typesIn s0 f x) (unwrapFragments n fs) s :=
  Stay.tryEach (D := typesIn s0) _ _ (fun _ _ _ wt => unwrapFragment_stay S hone wt) hw

/-- No type has been unwrapped at the start. -/
theorem start (hw : Whole.Wf K (Whole.cleared s0)) : Held K s0 (Whole.cleared s0) where
  wf := hw
  libs := rfl
  inv := by
    refine Inv.same (s := s0) ⟨fun x b0 h0 => ⟨b0, h0, (S.fresh x b0 h0).2, .raw (S.fresh x b0 h0).1 (fun h => h) rfl⟩, rfl, rfl, rfl,
      fun x b i h k => ⟨x, b, h, k⟩, fun _ _ => rfl, fun _ _ => rfl, fun c _ _ _ ⟨b, h1, h2⟩ _ => by rw [(S.fresh c b h1).1] at h2; cases h2⟩ rfl rfl rfl rfl rfl

/-! ## The unwrapped types -/

theorem Inv.done (hi : Inv s0 idle s) {x : Addr} (hx : Unw s x) : ∃ b0, s0.base x = some b0 ∧ (∀ y, BuiltOn s0 x y → Unw s y) ∧
    (b0.alias = none → ∀ y, Refers s0 x y → Unw s y) ∧ ∀ l, Line s0 x l → ¬ Sealed s0 s idle x → Eff s0 s x l := by
  obtain ⟨b, h1, h2⟩ := hx
  obtain ⟨b0, h0⟩ := hi.base0 h1
  obtain ⟨b', k1, k2, k3⟩ := hi.node x b0 h0
  rw [h1] at k1
  cases k1
  refine ⟨b0, h0, ?_⟩
  cases k3 with
  | raw e1 => rw [h2] at e1; cases e1
  | opened _ e2 => exact e2.elim
  | done e1 e2 e3 e4 e5 => exact ⟨e3, e4, fun l hl => (e5 l hl).1⟩

/-- The type is unwrapped, and if it is that of a property that overrides another one, the type it belongs to is. -/
def Within (s0 s : St) (x : Addr) : Prop := Unw s x ∧ ∀ a z, Over s0 a x z → Unw s a

/-- The unwrapped types have taken up their lines, and their parts are unwrapped as well. -/
theorem Inv.all (hi : Inv s0 idle s) {x : Addr} (hx : Within s0 s x) : ∃ l, Line s0 x l ∧ (∀ c ∈ l, ∀ y, Refers s0 c y → Within s0 s y) ∧
    ((∀ a z, ¬ Over s0 a x z) → Eff s0 s x l) ∧ ∀ a z, Over s0 a x z → ∃ L, Cov s0 x L ∧ Eff s0 s x L := by
  obtain ⟨hx, hov⟩ := hx
  obtain ⟨b0, h0, _, _, h3⟩ := hi.done S hx
  obtain ⟨l, hl, _⟩ := S.straight.line x b0 h0
  refine ⟨l, hl, fun c hc y hy => ?_, fun hno => h3 l hl fun ⟨c, y, k, _⟩ => hno c y k, fun a z h => ?_⟩
  · have hd : ∀ z, Descends s0 x z → Unw s z := fun z h => by
      induction h with
      | refl => exact hx
      | step _ h2 ih => obtain ⟨_, _, k, _⟩ := hi.done S ih; exact k _ h2
    have uc := hd c (line_descends hl c hc)
    obtain ⟨c0, k0, k1, k2, _⟩ := hi.done S uc
    obtain ⟨c0', k0', k3⟩ := line_plain hl c hc
    rw [k0] at k0'
    cases k0'
    refine ⟨k2 k3 y hy, fun a z h => ?_⟩
    obtain ⟨q, hq, he⟩ := hy
    cases he with
    | items h1 => exact absurd h (S.notOver (.items hq h1) a z)
    | pattern h1 => exact absurd h (S.notOver (.pattern hq h1) a z)
    | member h1 => exact absurd h (S.notOver (.member hq h1) a z)
    | @property f p h1 =>
      obtain ⟨_, k', p', _, _, i2, _, i4, _⟩ := h
      have : (p.1, p.2) ∈ propsAt s0 c := by rw [propsAt, objectAt_eq hq]; exact h1
      rw [(S.owner i2 this i4).1]
      exact uc
  · obtain ⟨_, _, L, k1, k2⟩ := hi.ovs a x z h (hov a z h) fun h => h
    exact ⟨L, k1, k2.eff⟩

end

end GoRaml.Mean
