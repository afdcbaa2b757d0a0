import Verif.Lemmas.LinesDecode
import Verif.Lemmas.ReadParse

/-!
# Acyclic lineage: resolution

A reference is given its parent, link or alias only after that has been resolved, so nothing can lead back to it.
-/

namespace GoRaml.Lines

open GoRaml GoRaml.Spec GoRaml.Load
open GoRaml.Read (Tied Solved ReadRec ReadAt ReadMembers noX)

/-- What `b` is made from. -/
def Up (s : St) (b : Base) (x : Addr) : Prop :=
  b.alias = some x ∨ (∃ d D, b.link = some d ∧ s.dts[d]? = some D ∧ D.shape = some x) ∨ x ∈ s.slice b.inherits

/-- What the base `a`, which has a shape, is made from. -/
def Edge (s : St) (a x : Addr) : Prop := ∃ b, s.base a = some b ∧ Set b ∧ Up s b x

/-- The base has a shape. -/
def SetAt (s : St) (a : Addr) : Prop := ∃ b, s.base a = some b ∧ Set b

/-- No infinite lineage; what has been taken up has been resolved; references have no alias, and a link or parents. -/
structure Fine (s : St) : Prop where
  acc : ∀ a, Acc (fun x a => Edge s a x) a
  typed : ∀ a x, Edge s a x → Concrete s x
  unk : ∀ a b, s.base a = some b → Unk b → b.alias = none ∧ (b.link ≠ none → b.inherits = none) ∧ (b.inherits ≠ none → b.type = "composite")

section
variable {E : Env} {c : Calls} {rec : Addr → M St Unit} {P : Perm} {s s1 s2 s3 s' : St} {a x : Addr} {b b1 b' : Base} {facets : Option (List YNode)} {t : String}

theorem typed_set (h : Typed b) : Set b := by
  obtain ⟨sh, h1, _, h3⟩ := h
  exact ⟨sh, h1, fun f e => by subst e; exact h3 rfl⟩

theorem concrete_set (h : Concrete s x) : SetAt s x := by
  obtain ⟨b, h1, h2⟩ := h
  exact ⟨b, h1, typed_set h2⟩

theorem unk_not_set (h : Unk b) : ¬ Set b := fun ⟨_, h1, h2⟩ => by
  obtain ⟨f, hf⟩ := h
  rw [hf] at h1; cases h1; exact h2 f rfl

theorem Fine.core (h : Fine s) (he : ∀ z x, z ≠ a → Edge s' z x → Edge s z x) (hc : ∀ x, Concrete s x → Concrete s' x)
    (ha : ∀ x, Edge s' a x → Concrete s x ∧ (SetAt s a → Edge s a x))
    (hu : ∀ a b, s'.base a = some b → Unk b → b.alias = none ∧ (b.link ≠ none → b.inherits = none) ∧ (b.inherits ≠ none → b.type = "composite")) : Fine s' where
  acc := by
    by_cases hs : SetAt s a
    · have hsub : ∀ z x, Edge s' z x → Edge s z x := fun z x hz => by
        by_cases e : z = a
        · subst e; exact (ha x hz).2 hs
        · exact he z x e hz
      intro z
      induction h.acc z with
      | intro z _ ih => exact ⟨z, fun x hx => ih x (hsub z x hx)⟩
    · have hother : ∀ z, z ≠ a → Acc (fun x a => Edge s' a x) z := fun z hz => by
        induction h.acc z with
        | intro z _ ih =>
          refine ⟨z, fun x hx => ?_⟩
          have hx' := he z x hz hx
          exact ih x hx' fun e => hs (e ▸ concrete_set (h.typed z x hx'))
      intro z
      by_cases e : z = a
      · subst e
        exact ⟨z, fun x hx => hother x fun e => hs (e ▸ concrete_set (ha x hx).1)⟩
      · exact hother z e
  typed := fun z x hz => by
    by_cases e : z = a
    · subst e; exact hc x (ha x hz).1
    · exact hc x (h.typed z x (he z x e hz))
  unk := hu

/-! ## Steps -/

theorem slice_prefix (hs : s.slices <+: s'.slices) {i : Option Nat} (hi : IfSome (· < s.slices.length) i) : s'.slice i = s.slice i := by
  cases i with
  | none => rfl
  | some i =>
    have hi : i < s.slices.length := hi i rfl
    show (s'.slices[i]?).getD [] = (s.slices[i]?).getD []
    rw [Read.prefix_get hs (List.getElem?_eq_getElem hi), List.getElem?_eq_getElem hi]

theorem Up.back (hs : s.slices <+: s'.slices) (hd : ∀ i, i < s.dts.length → s'.dts[i]? = s.dts[i]?) (hb : BaseIn s b) (e : SameLine b b') (h : Up s' b' x) : Up s b x := by
  obtain ⟨e1, e2, e3⟩ := e
  rcases h with h | ⟨d, D, h1, h2, h3⟩ | h
  · exact .inl (e3 ▸ h)
  · rw [e1] at h1
    have hl := hb.link d h1
    exact .inr (.inl ⟨d, D, h1, hd d hl ▸ h2, h3⟩)
  · rw [e2, slice_prefix hs hb.inherits] at h
    exact .inr (.inr h)

theorem Up.on (hs : s.slices <+: s'.slices) (hd : ∀ i, i < s.dts.length → s'.dts[i]? = s.dts[i]?) (hb : BaseIn s b) (h : Up s b x) : Up s' b x := by
  rcases h with h | ⟨d, D, h1, h2, h3⟩ | h
  · exact .inl h
  · exact .inr (.inl ⟨d, D, h1, (hd d (Read.lt_of_get h2)).trans h2, h3⟩)
  · exact .inr (.inr (by rw [slice_prefix hs hb.inherits]; exact h))

/-- A step that is about the base `a`. -/
structure Step (a : Addr) (s s' : St) : Prop where
  aside : Aside a s s'
  slices : s.slices <+: s'.slices
  dts : ∀ i, i < s.dts.length → s'.dts[i]? = s.dts[i]?
  conc : ∀ x, x ≠ a → Concrete s x → Concrete s' x

theorem Step.trans (h : Step a s s1) (h' : Step a s1 s2) (hl : s.dts.length ≤ s1.dts.length) : Step a s s2 :=
  ⟨h.aside.trans h'.aside, h.slices.trans h'.slices, fun i hi => (h'.dts i (Nat.lt_of_lt_of_le hi hl)).trans (h.dts i hi), fun x hx hc => h'.conc x hx (h.conc x hx hc)⟩

theorem step_upd {g : Base → Base} {sl : List (List Addr)} : Step a s { s with slices := s.slices ++ sl, bases := s.bases.modify a g } where
  aside := (aside_upd (s := s) (a := a) (g := g)).trans (G.same (ex := some a) (s := { s with bases := s.bases.modify a g }) (s' := { s with slices := s.slices ++ sl, bases := s.bases.modify a g }) rfl).aside
  slices := List.prefix_append _ _
  dts := fun _ _ => rfl
  conc := fun x hx ⟨b, hb, ht⟩ => ⟨b, by show ({ s with bases := s.bases.modify a g } : St).base x = _; rw [Halt.base_upd, if_neg (fun e => hx e.symm)]; exact hb, ht⟩

theorem Fine.unk_aside (h : Fine s) (st : Aside a s s') (ha : ∀ b, s'.base a = some b → ¬ Unk b) :
    ∀ a b, s'.base a = some b → Unk b → b.alias = none ∧ (b.link ≠ none → b.inherits = none) ∧ (b.inherits ≠ none → b.type = "composite") := by
  intro z b' hb hu
  have hz : z ≠ a := fun e => ha b' (e ▸ hb) hu
  cases hs : s.base z with
  | none =>
    have := st.new z b' hz hb hs
    exact ⟨this.1, this.2.2 hu⟩
  | some b =>
    obtain ⟨b1, h1, e, ht⟩ := st.old z b hz hs
    rw [hb] at h1; cases h1
    have := h.unk z b hs (ht.unk.1 hu)
    rw [e.1, e.2.1, e.2.2, ht.2]; exact this

theorem Step.edge (hw : W E P s) (st : Step a s s') {z : Addr} (hz : z ≠ a) (h : Edge s' z x) : Edge s z x := by
  obtain ⟨b', h1, h2, h3⟩ := h
  cases hs : s.base z with
  | none =>
    have := st.aside.new z b' hz h1 hs
    obtain ⟨k1, k2⟩ := this.2.1 h2
    rcases h3 with h | ⟨d, D, h, _⟩ | h
    · rw [this.1] at h; cases h
    · rw [k1] at h; cases h
    · rw [k2] at h; cases h
  | some b =>
    obtain ⟨b1, e1, e, ht⟩ := st.aside.old z b hz hs
    rw [h1] at e1; cases e1
    exact ⟨b, hs, ht.set.1 h2, h3.back st.slices st.dts (hw.base z b hs) e⟩

/-- The base `a` gets what it is made from. -/
theorem Fine.step (h : Fine s) (hw : W E P s) (st : Step a s s') (hb : s'.base a = some b') (ht : Typed b')
    (hup : ∀ x, Up s' b' x → Concrete s x ∧ (SetAt s a → Edge s a x)) : Fine s' := by
  refine h.core (a := a) (fun z x hz => st.edge hw hz) (fun x hx => ?_) (fun x ⟨b, h1, _, h3⟩ => ?_) (h.unk_aside st.aside fun b h1 hu => ?_)
  · by_cases e : x = a
    · exact e ▸ ⟨b', hb, ht⟩
    · exact st.conc x e hx
  · rw [hb] at h1; cases h1; exact hup x h3
  · rw [hb] at h1; cases h1; exact hu.not_typed ht

/-- Making the base concrete. -/
theorem made (hS : ∀ loc v, Load.Sub E anyCtl allPaths c loc v) (hdo : CallsDo c) (hw : W E P s) (hb : s.base a = some b) (hn : Kind (emptyShape t) ≠ "unknown")
    (hr : makeConcrete E c a t facets s = (.ok (), s1)) :
    Step a s s1 ∧ s.dts.length ≤ s1.dts.length ∧ W E P s1 ∧ ∃ sh, s1.base a = some { b with type := t, shape := some sh } ∧ Typed { b with type := t, shape := some sh } := by
  obtain ⟨hw1, _, g1, ⟨sh, h1, hm⟩, _⟩ := (concrete_run hS hw trivial hb hn).ok hr
  have hg := makeConcrete_does (E := E) hdo (t := t) (facets := facets) (a := a) s fun x hx => by cases hx; rw [hb]; rfl
  rw [hr] at hg
  exact ⟨⟨hg.aside, g1.slices, fun i hi => g1.dt i hi id, fun x hx hc => g1.concrete hc fun h => h.elim id hx⟩, g1.dtsLen, hw1, sh, h1, typed_of hm hn⟩

/-- Making a reference concrete that has neither parents nor a link. -/
theorem made_fine (hS : ∀ loc v, Load.Sub E anyCtl allPaths c loc v) (hdo : CallsDo c) (hw : W E P s) (hf : Fine s) (hb : s.base a = some b) (hl : Lone b)
    (hn : Kind (emptyShape t) ≠ "unknown") (hr : makeConcrete E c a t facets s = (.ok (), s1)) : Fine s1 := by
  obtain ⟨st, _, hw1, sh, h1, ht⟩ := made hS hdo hw hb hn hr
  refine hf.step hw st h1 ht fun x hx => ?_
  exfalso
  rcases hx with h | ⟨d, D, h, _⟩ | h
  · rw [hl.2.2] at h; cases h
  · rw [hl.1] at h; cases h
  · have h : x ∈ s1.slice b.inherits := h
    rw [hl.2.1] at h; cases h

/-! ## Contracts -/

/-- The contract of the recursive calls. -/
def RecFine (E : Env) (rec : Addr → M St Unit) : Prop :=
  ∀ P s a s', W E P s → Calm P s → Tied E s → Fine s → IsBase s a → rec a s = (.ok (), s') → Fine s'

/-- The contract of a visitor for a tree and its target. -/
def AtFine (E : Env) (tree : Rdt) (at_ : Addr → Option (List YNode) → M St Unit) : Prop :=
  ∀ P s a b facets s', W E P s → Calm P s → Tied E s → Fine s → s.base a = some b → b.shape = some (.unknown facets) → Lone b →
    (∀ s1, Solved E noX s s1 → Res noBase s s1 → s1.base a = some b ∨ (layout s1 s.bases.length b.location tree).at_ (facets = none) a) →
    at_ a facets s = (.ok (), s') → Fine s'

/-- The contract of a visitor for the members of a union. -/
def MembersFine (E : Env) (members : String → M St (List Addr)) : Prop :=
  ∀ P s loc l s', W E P s → Calm P s → Tied E s → Fine s → members loc s = (.ok l, s') → Fine s'

theorem visitReference_fine (hS : ∀ loc v, Load.Sub E anyCtl allPaths c loc v) (hdo : CallsDo c) (hrec : RecSpec E anyCtl rec) (hread : ReadRec E rec) (hfine : RecFine E rec)
    (x : String) (y : Option String) : AtFine E (.ref x y) (visitReference E c rec (refText x y)) := by
  intro P s a b facets s' hw hc ht hf hb hsh hlone hcons hr
  unfold visitReference at hr
  obtain ⟨b0, s0, r1, r2⟩ := M.bind_ok.1 hr
  obtain ⟨rfl, hb0⟩ := getBase_ok r1
  rw [hb] at hb0; cases hb0
  obtain ⟨ref, s1, r3, r4⟩ := M.bind_ok.1 r2
  obtain ⟨href, rfl⟩ := M.lift_ok.1 r3
  obtain ⟨rb0, s1, r5, r6⟩ := M.bind_ok.1 r4
  obtain ⟨rfl, _⟩ := getBase_ok r5
  split at r6
  · cases r6
  obtain ⟨_, s2, r7, r8⟩ := M.bind_ok.1 r6
  obtain ⟨rb, s3, r9, r10⟩ := M.bind_ok.1 r8
  obtain ⟨rfl, hrb⟩ := getBase_ok r9
  obtain ⟨_, s4, r11, r12⟩ := M.bind_ok.1 r10
  obtain ⟨_, s5, r13, r14⟩ := M.bind_ok.1 r12
  have hib : IsBase s1 ref := getReferenced_isBase hw (fun l hl => hl.types) href
  obtain ⟨hw3, _, g3, hcon, hres⟩ := (hrec P s1 ref hw trivial hc hib).ok r7
  obtain ⟨rb', hrb', htr⟩ := hcon
  have hcref : Concrete s3 ref := ⟨rb', hrb', htr⟩
  rw [hrb] at hrb'; cases hrb'
  have hk : Kind (emptyShape rb.type) ≠ "unknown" := by
    obtain ⟨sh, _, h1, h2⟩ := htr
    rw [← h1]; exact h2
  have hsol := hread P s1 ref s3 hw hc ht hib r7
  have hf3 := hfine P s1 ref s3 hw hc ht hf hib r7
  have href3 := hsol.later.refs trivial _ _ _ href
  obtain ⟨b1, hb1⟩ := isBase_base (g3.isBase (base_isBase hb))
  obtain ⟨st, hdl, hw4, sh, h4, ht4⟩ := made hS hdo hw3 hb1 hk r11
  -- what the target is made from at this point
  have hold : ∀ z, Up s3 b1 z → Edge s3 a z ∧ Set b1 := by
    rcases hcons s3 hsol hres with h | h
    · rw [hb1] at h; cases h
      intro z hz
      exfalso
      rcases hz with h | ⟨d, D, h, _⟩ | h
      · rw [hlone.2.2] at h; cases h
      · rw [hlone.1] at h; cases h
      · rw [hlone.2.1] at h; cases h
    · obtain ⟨b2, ref2, k1, k2, _⟩ := h
      rw [hb1] at k1; cases k1
      exact fun z hz => ⟨⟨_, hb1, typed_set k2, hz⟩, typed_set k2⟩
  have hnew : SetAt s3 a → Edge s3 a ref := by
    rintro ⟨b2, k1, k2⟩
    rw [hb1] at k1; cases k1
    rcases hcons s3 hsol hres with h | h
    · rw [hb1] at h; cases h
      exact absurd k2 (unk_not_set ⟨_, hsh⟩)
    · obtain ⟨b2, ref2, m1, m2, m3, m4, m5⟩ := h
      rw [hb1] at m1; cases m1
      rw [href3] at m3; cases m3
      refine ⟨_, hb1, k2, ?_⟩
      by_cases hp : facets = none
      · exact .inl (m4 hp)
      · exact .inr (.inr (m5 hp))
  have key : ∀ (sl : List (List Addr)) (g : Base → Base), (∀ b, (g b).type = b.type ∧ (g b).shape = b.shape) →
      (∀ z, Up { s4 with slices := s4.slices ++ sl, bases := s4.bases.modify a g } (g { b1 with type := rb.type, shape := some sh }) z → z = ref ∨ Up s3 b1 z) →
      Fine { s4 with slices := s4.slices ++ sl, bases := s4.bases.modify a g } := by
    intro sl g hg hup
    refine hf3.step hw3 (st.trans step_upd hdl) (Read.base_modify_eq h4) ?_ fun z hz => ?_
    · obtain ⟨sh', q1, q2, q3⟩ := ht4
      exact ⟨sh', (hg _).2.trans q1, by rw [(hg _).1]; exact q2, q3⟩
    · rcases hup z hz with rfl | h
      · exact ⟨hcref, hnew⟩
      · exact ⟨hf3.typed a z (hold z h).1, fun _ => (hold z h).1⟩
  have hin := hw3.base a b1 hb1
  unfold Heap.updBase at r13
  cases r13
  cases facets with
  | none =>
    unfold Heap.updBase at r14
    cases r14
    have := key [] ((fun b => { b with «alias» := some ref }) ∘ fun b => { b with typeLabel := refText x y }) (fun b => ⟨rfl, rfl⟩) fun z hz => by
      rcases hz with h | ⟨d, D, h1, h2, h3⟩ | h
      · cases h; exact .inl rfl
      · have h1 : b1.link = some d := h1
        have hl := hin.link d h1
        exact .inr (.inr (.inl ⟨d, D, h1, st.dts d hl ▸ h2, h3⟩))
      · refine .inr (.inr (.inr ?_))
        have h : z ∈ ({ s4 with slices := s4.slices ++ [] } : St).slice b1.inherits := h
        rw [slice_prefix (s := s3) (st.slices.trans (List.prefix_append _ _)) hin.inherits] at h
        exact h
    simpa only [List.append_nil, List.modify_modify_eq] using this
  | some l =>
    have h6 : ({ s4 with bases := s4.bases.modify a fun b => { b with typeLabel := refText x y } } : St).base a = some { { b1 with type := rb.type, shape := some sh } with typeLabel := refText x y } :=
      Read.base_modify_eq h4
    simp only [appendInherits, h6] at r14
    obtain ⟨i, s6, r15, r16⟩ := M.bind_ok.1 r14
    unfold Heap.newSlice at r15
    cases r15
    unfold Heap.updBase at r16
    cases r16
    have := key [({ s4 with bases := s4.bases.modify a fun b => { b with typeLabel := refText x y } } : St).slice b1.inherits ++ [ref]]
      ((fun b => { b with inherits := some s4.slices.length }) ∘ fun b => { b with typeLabel := refText x y }) (fun b => ⟨rfl, rfl⟩) fun z hz => by
      rcases hz with h | ⟨d, D, h1, h2, h3⟩ | h
      · exact .inr (.inl h)
      · have h1 : b1.link = some d := h1
        have hl := hin.link d h1
        exact .inr (.inr (.inl ⟨d, D, h1, st.dts d hl ▸ h2, h3⟩))
      · have h : z ∈ ((s4.slices ++ [s4.slice b1.inherits ++ [ref]])[s4.slices.length]?).getD [] := h
        rw [List.getElem?_concat_length, Option.getD_some, List.mem_append, slice_prefix st.slices hin.inherits] at h
        rcases h with h | h
        · exact .inr (.inr (.inr h))
        · exact .inl (List.mem_singleton.1 h)
    simpa only [List.modify_modify_eq] using this

theorem prim_fine (hS : ∀ loc v, Load.Sub E anyCtl allPaths c loc v) (hdo : CallsDo c) (p : Prim) : AtFine E (.prim p) (fun a _ => makeConcrete E c a p.text none) := by
  intro P s a b facets s' hw hc ht hf hb hsh hlone hcons hr
  exact made_fine hS hdo hw hf hb hlone (by cases p <;> decide +kernel) hr

/-! ## Parts of expressions -/

/-- Nothing about old bases, and the new ones are fine. -/
theorem Fine.grow (h : Fine s) (hw : W E P s) (g : G none s s') (hsl : s.slices <+: s'.slices) (hd : ∀ i, i < s.dts.length → s'.dts[i]? = s.dts[i]?) : Fine s' := by
  have hc : ∀ x, Concrete s x → Concrete s' x := fun x ⟨b, hb, sh, h1, h2, h3⟩ => by
    obtain ⟨b', k1, _, k3⟩ := g.old x b hb
    obtain ⟨e1, e2⟩ := k3 (by simp)
    exact ⟨b', k1, sh, e1.trans h1, by rw [e2]; exact h2, h3⟩
  -- `s.bases.length + s'.bases.length` is no base
  have hout : s'.base (s.bases.length + s'.bases.length) = none := List.getElem?_eq_none (Nat.le_add_left _ _)
  have st : Step (s.bases.length + s'.bases.length) s s' := ⟨(g.widen (ex := some _)).aside, hsl, hd, fun x _ => hc x⟩
  exact h.core (a := s.bases.length + s'.bases.length) (fun z x hz => st.edge hw hz) hc (fun x ⟨b, h1, _⟩ => by rw [hout] at h1; cases h1)
    (h.unk_aside st.aside fun b h1 => by rw [hout] at h1; cases h1)

theorem newShape_grows (hdo : CallsDo c) {name loc : String} {m : Addr} (h : makeNewShape E c name t loc s = (.ok m, s1)) :
    G none s s1 ∧ ∀ b, s1.base m = some b → Lone b := by
  unfold makeNewShape at h
  obtain ⟨m', s0, r1, r2⟩ := M.bind_ok.1 h
  obtain ⟨u, s0', r3, r4⟩ := M.bind_ok.1 r2
  obtain ⟨rfl, rfl⟩ := M.ret_ok.1 r4
  obtain ⟨b0, e0, hbs, hl⟩ : ∃ b0, m' = s.bases.length ∧ s0.bases = s.bases ++ [b0] ∧ Lone b0 := by
    unfold makeBaseShape at r1
    cases r1; exact ⟨_, rfl, rfl, ⟨rfl, rfl, rfl⟩⟩
  subst e0
  have hb0 : s0.base s.bases.length = some b0 := by show s0.bases[_]? = _; rw [hbs]; simp
  obtain ⟨k1, b', k2, k3, k4⟩ := (makeConcrete_does (E := E) hdo (t := t) (facets := none) (a := s.bases.length)).builds s0 b0 hb0 hl
  rw [r3] at k1 k2 k4
  have h0 : Aside s.bases.length s s0 := by
    refine ⟨fun x b hx hb => ⟨b, ?_, .rfl, rfl, rfl⟩, fun x b hx hb hn => ?_⟩
    · show s0.bases[x]? = _
      rw [hbs, List.getElem?_append_left (List.getElem?_eq_some_iff.1 hb).1]; exact hb
    · have hb : s0.bases[x]? = _ := hb
      rw [hbs] at hb
      have hn : s.bases[x]? = none := hn
      rcases Load.getElem?_snoc hb with ⟨h, _⟩ | ⟨h, _⟩
      · rw [hn] at h; cases h
      · exact absurd h hx
  refine ⟨(h0.trans k1).done (List.getElem?_eq_none (Nat.le_refl _)) fun b hb => ?_, fun b hb => ?_⟩
  · rw [k2] at hb; cases hb; exact k3
  · rw [k2] at hb; cases hb; exact k4 _ rfl

theorem newShape_fine (hS : ∀ loc v, Load.Sub E anyCtl allPaths c loc v) (hdo : CallsDo c) (hw : W E P s) (hf : Fine s) {name loc : String} {m : Addr}
    (h : makeNewShape E c name t loc s = (.ok m, s1)) : Fine s1 := by
  obtain ⟨_, _, g1, _⟩ := (makeNewShape_run hS hw trivial).ok h
  exact hf.grow hw (newShape_grows hdo h).1 g1.slices fun i hi => g1.dt i hi id

theorem newShape_tied (ht : Tied E s) {loc : String} {m : Addr} (h : makeNewShape E c "" "" loc s = (.ok m, s1)) : Tied E s1 := by
  unfold makeNewShape at h
  obtain ⟨m', s0, r1, r2⟩ := M.bind_ok.1 h
  obtain ⟨u, s0', r3, r4⟩ := M.bind_ok.1 r2
  obtain ⟨rfl, rfl⟩ := M.ret_ok.1 r4
  have hb : s0 = Read.born s "" loc ∧ m' = s.bases.length := by
    unfold makeBaseShape at r1
    cases r1; exact ⟨rfl, rfl⟩
  obtain ⟨rfl, rfl⟩ := hb
  have hborn := Read.call_born (E := E) (name := "") (loc := loc) ht
  have hbb : (Read.born s "" loc).base s.bases.length = some (Load.newBaseOf s "" loc) := by simp [St.base]
  have := Read.makeConcrete_unknown hbb (by rw [unk_empty]; rfl) r3
  subst this
  exact hborn.tied.updBase fun b0 hb0 => ⟨rfl, fun _ => by simp [← ht.len]⟩

theorem part_fine (hS : ∀ loc v, Load.Sub E anyCtl allPaths c loc v) (hdo : CallsDo c) {tree : Rdt} {at_ : Addr → Option (List YNode) → M St Unit} (hat : AtFine E tree at_)
    {loc : String} {m : Addr} (hw : W E P s) (hc : Calm P s) (ht : Tied E s) (hf : Fine s) (h1 : makeNewShape E c "" "" loc s = (.ok m, s1)) (h2 : at_ m none s1 = (.ok (), s2)) :
    Fine s2 := by
  have hf1 := newShape_fine hS hdo hw hf h1
  obtain ⟨_, hlone⟩ := newShape_grows hdo h1
  obtain ⟨hw1, _, g1, ⟨⟨e, bm, hbm, _, htm, hsm⟩, _⟩⟩ := (makeNewShape_run hS hw trivial).ok h1
  rw [unk_empty] at hsm
  rw [← e] at hw1
  have hc1 : Calm (P.addB m) s1 := (hc.mono g1).add hbm (.inl ⟨_, hsm⟩)
  have ht1 : Tied E s1 := newShape_tied ht h1
  refine hat _ _ _ _ _ _ hw1 hc1 ht1 hf1 hbm hsm (hlone bm hbm) (fun s' hsol _ => .inl ?_) h2
  rcases hsol.later.b m bm id hbm with ⟨k, _⟩ | ⟨_, _, facets, b', _, _, _, _, _, hr⟩
  · exact k
  · exfalso
    unfold Read.ResolvedTo at hr
    simp only [(hlone bm hbm).1, htm] at hr
    rw [if_neg (by decide)] at hr
    obtain ⟨tr, k, _⟩ := hr
    rw [Read.parse_empty] at k; cases k

/-- Changing the target, which is made from nothing. -/
theorem Fine.touch (h : Fine s) (hw : W E P s) {g : Base → Base} {sl : List (List Addr)} (hb : s.base a = some b) (ht : Typed b) (hg : SameLine b (g b)) (hgt : Typed (g b)) :
    Fine { s with slices := s.slices ++ sl, bases := s.bases.modify a g } := by
  refine h.step hw step_upd (Read.base_modify_eq hb) hgt fun x hx => ?_
  have hx' : Up s b x := Up.back (s' := { s with slices := s.slices ++ sl, bases := s.bases.modify a g }) (List.prefix_append _ _) (fun _ _ => rfl) (hw.base a b hb) hg hx
  have he : Edge s a x := ⟨b, hb, typed_set ht, hx'⟩
  exact ⟨h.typed a x he, fun _ => he⟩

theorem setAnyOf_fine {l : List Addr} (hw : W E P s) (hf : Fine s) (hb : s.base a = some b) (ht : Typed b) (hty : b.type = "union") (hr : setAnyOf a l s = (.ok (), s')) : Fine s' := by
  unfold setAnyOf at hr
  obtain ⟨i, s3, r1, r2⟩ := M.bind_ok.1 hr
  unfold Heap.newSlice at r1
  cases r1
  unfold setShape Heap.updBase at r2
  cases r2
  exact hf.touch hw hb ht ⟨rfl, rfl, rfl⟩ ⟨_, rfl, by show Kind (Shape.union _ _) = Kind (emptyShape b.type); rw [hty]; rfl, by simp [Kind]⟩

theorem visitUnion_fine (hg : Read.Good E c) (hS : ∀ loc v, Load.Sub E anyCtl allPaths c loc v) (hdo : CallsDo c) {l r : Rdt} {members : String → M St (List Addr)}
    {lay : St → Addr → String → Layout} (hmr : MembersSpec E anyCtl lay members) (hmd : ReadMembers E members) (hm : MembersFine E members) :
    AtFine E (.union l r) (visitUnion E c members) := by
  intro P s a b facets s' hw hc ht hf hb hsh hlone hcons hr
  unfold visitUnion at hr
  obtain ⟨b0, s0, r1, r2⟩ := M.bind_ok.1 hr
  obtain ⟨rfl, hb0⟩ := getBase_ok r1
  rw [hb] at hb0; cases hb0
  obtain ⟨_, s1, r3, r4⟩ := M.bind_ok.1 r2
  obtain ⟨ss, s2, r5, r6⟩ := M.bind_ok.1 r4
  have hf1 := made_fine hS hdo hw hf hb hlone kind_union_ne r3
  obtain ⟨hw1, _, g1, _⟩ := (concrete_run hS hw trivial hb kind_union_ne).ok r3
  obtain ⟨sh, h1, h2, h3, h4⟩ := Read.make hg ht hb ⟨_, hsh⟩ kind_union_ne r3
  have hc1 : Calm P s1 := hc.step g1 fun _ => ⟨_, h2, .inr h4.typed⟩
  obtain ⟨hw2, _⟩ := (hmr P s1 _ hw1 trivial hc1).ok r5
  have k := hmd P s1 _ _ _ hw1 hc1 h1.tied r5
  exact setAnyOf_fine hw2 (hm P s1 _ _ _ hw1 hc1 h1.tied hf1 r5) (Read.kept k h2 h4.typed).1 h4.typed rfl r6

theorem part_w (hS : ∀ loc v, Load.Sub E anyCtl allPaths c loc v) {e : Rdt} {at_ : Addr → Option (List YNode) → M St Unit}
    (hat : AtSpec E anyCtl (fun s lo loc => layout s lo loc e) at_) {loc : String} {m : Addr} (hw : W E P s) (hc : Calm P s) (h1 : makeNewShape E c "" "" loc s = (.ok m, s1))
    (h2 : at_ m none s1 = (.ok (), s2)) : W E P s2 ∧ Calm P s2 := by
  obtain ⟨hw2, _, g2, _⟩ := (part_run hS hat (fun s lo lo' loc plain a h => (layout_lower h e).1 plain a) (fun s lo loc plain a h => layout_concrete e h) hw trivial hc).ok
    (x := m) (s' := s2) (M.bind_ok.2 ⟨m, s1, h1, M.bind_ok.2 ⟨_, s2, h2, M.ret_ok.2 ⟨rfl, rfl⟩⟩⟩)
  exact ⟨hw2, hc.mono g2⟩

theorem visitOptional_fine (hg : Read.Good E c) (hS : ∀ loc v, Load.Sub E anyCtl allPaths c loc v) (hdo : CallsDo c) {e : Rdt} {v : Visitor}
    (hrun : AtSpec E anyCtl (fun s lo loc => layout s lo loc e) v.at_) (hread : ReadAt E e v.at_) (hat : AtFine E e v.at_) : AtFine E (.optional e) (visitOptional E c v) := by
  intro P s a b facets s' hw hc ht hf hb hsh hlone hcons hr
  unfold visitOptional at hr
  obtain ⟨b0, s0, r1, r2⟩ := M.bind_ok.1 hr
  obtain ⟨rfl, hb0⟩ := getBase_ok r1
  rw [hb] at hb0; cases hb0
  obtain ⟨_, s1, r3, r4⟩ := M.bind_ok.1 r2
  obtain ⟨m, s2, r5, r6⟩ := M.bind_ok.1 r4
  obtain ⟨_, s3, r7, r8⟩ := M.bind_ok.1 r6
  obtain ⟨m', s4, r9, r10⟩ := M.bind_ok.1 r8
  have hf1 := made_fine hS hdo hw hf hb hlone kind_union_ne r3
  obtain ⟨hw1, _, g1, _⟩ := (concrete_run hS hw trivial hb kind_union_ne).ok r3
  obtain ⟨sh, h1, h2, h3, h4⟩ := Read.make hg ht hb ⟨_, hsh⟩ kind_union_ne r3
  have hc1 : Calm P s1 := hc.step g1 fun _ => ⟨_, h2, .inr h4.typed⟩
  have k1 := Read.part_reads hS hread hw1 hc1 h1.tied r5 r7
  have k2 := Read.nil_reads hg k1.tied r9
  have hf3 := part_fine hS hdo hat hw1 hc1 h1.tied hf1 r5 r7
  obtain ⟨hw3, hc3⟩ := part_w hS hrun hw1 hc1 r5 r7
  have hf4 := newShape_fine hS hdo hw3 hf3 r9
  obtain ⟨hw4, _⟩ := (makeNewShape_run hS hw3 trivial).ok r9
  exact setAnyOf_fine hw4 hf4 (Read.kept (k1.trans k2 fun _ h => h.elim) h2 h4.typed).1 h4.typed rfl r10

theorem visitArray_fine (hg : Read.Good E c) (hS : ∀ loc v, Load.Sub E anyCtl allPaths c loc v) (hdo : CallsDo c) {e : Rdt} {v : Visitor}
    (hrun : AtSpec E anyCtl (fun s lo loc => layout s lo loc e) v.at_) (hread : ReadAt E e v.at_) (hat : AtFine E e v.at_) : AtFine E (.array e) (visitArray E c v) := by
  intro P s a b facets s' hw hc ht hf hb hsh hlone hcons hr
  unfold visitArray at hr
  obtain ⟨b0, s0, r1, r2⟩ := M.bind_ok.1 hr
  obtain ⟨rfl, hb0⟩ := getBase_ok r1
  rw [hb] at hb0; cases hb0
  obtain ⟨_, s1, r3, r4⟩ := M.bind_ok.1 r2
  obtain ⟨m, s2, r5, r6⟩ := M.bind_ok.1 r4
  obtain ⟨_, s3, r7, r8⟩ := M.bind_ok.1 r6
  have hka : Kind (emptyShape "array") ≠ "unknown" := by decide +kernel
  have hf1 := made_fine hS hdo hw hf hb hlone hka r3
  obtain ⟨hw1, _, g1, _⟩ := (concrete_run hS hw trivial hb hka).ok r3
  obtain ⟨sh, h1, h2, h3, h4⟩ := Read.make hg ht hb ⟨_, hsh⟩ hka r3
  have hc1 : Calm P s1 := hc.step g1 fun _ => ⟨_, h2, .inr h4.typed⟩
  have k1 := Read.part_reads hS hread hw1 hc1 h1.tied r5 r7
  have hf3 := part_fine hS hdo hat hw1 hc1 h1.tied hf1 r5 r7
  obtain ⟨hw3, _⟩ := part_w hS hrun hw1 hc1 r5 r7
  have h2' := (Read.kept k1 h2 h4.typed).1
  obtain ⟨f, rfl⟩ : ∃ f, sh = .array f := by
    obtain ⟨sh', e1, e2, _⟩ := h4.typed
    cases e1
    exact Load.kind_array (e2.trans (show Kind (emptyShape "array") = "array" by decide +kernel))
  have harr : arrayAt s3 a = f := by simp [arrayAt, St.shapeAt, h2']
  simp only [harr, setArray, Heap.updBase] at r8
  obtain ⟨g, hg1, hg2⟩ : ∃ g : Base → Base, s' = { s3 with bases := s3.bases.modify a g } ∧
      ∀ b f0, b.shape = some (.array f0) → g b = { b with shape := some (.array { f with items := some m }) } :=
    ⟨_, (Prod.mk.inj r8).2.symm, fun b f0 h => by simp only [h]⟩
  have hgb := hg2 { b with type := "array", shape := some (.array f) } f rfl
  have htm : Typed { b with type := "array", shape := some (.array { f with items := some m }) } := ⟨_, rfl, by simp only [Kind]; decide +kernel, by simp [Kind]⟩
  have := hf3.touch (sl := []) (g := g) hw3 h2' h4.typed (by rw [hgb]; exact ⟨rfl, rfl, rfl⟩) (by rw [hgb]; exact htm)
  simp only [List.append_nil] at this
  rw [hg1]; exact this

theorem lastMembers_fine (hS : ∀ loc v, Load.Sub E anyCtl allPaths c loc v) (hdo : CallsDo c) {e : Rdt} {at_ : Addr → Option (List YNode) → M St Unit} (hat : AtFine E e at_) :
    MembersFine E (Visitor.last E c at_).members := by
  intro P s loc l s' hw hc ht hf hr
  obtain ⟨m, s1, r1, r2⟩ := M.bind_ok.1 hr
  obtain ⟨_, s2, r3, r4⟩ := M.bind_ok.1 r2
  obtain ⟨_, rfl⟩ := M.ret_ok.1 r4
  exact part_fine hS hdo hat hw hc ht hf r1 r3

theorem visitor_fine (hg : Read.Good E c) (hS : ∀ loc v, Load.Sub E anyCtl allPaths c loc v) (hdo : CallsDo c) (hrec : RecSpec E anyCtl rec) (hread : ReadRec E rec)
    (hfine : RecFine E rec) : ∀ e : Rdt, AtFine E e (visitor E c rec e).at_ ∧ MembersFine E (visitor E c rec e).members
  | .prim p => ⟨prim_fine hS hdo p, lastMembers_fine hS hdo (prim_fine hS hdo p)⟩
  | .ref x y => ⟨visitReference_fine hS hdo hrec hread hfine x y, lastMembers_fine hS hdo (visitReference_fine hS hdo hrec hread hfine x y)⟩
  | .group e => by
    have h := (visitor_fine hg hS hdo hrec hread hfine e).1
    exact ⟨h, lastMembers_fine hS hdo h⟩
  | .optional e => by
    have h := visitOptional_fine hg hS hdo (visitor_run hS hrec e).1 (Read.visitor_reads hg hS hrec hread e).1 (visitor_fine hg hS hdo hrec hread hfine e).1
    exact ⟨h, lastMembers_fine hS hdo h⟩
  | .array e => by
    have h := visitArray_fine hg hS hdo (visitor_run hS hrec e).1 (Read.visitor_reads hg hS hrec hread e).1 (visitor_fine hg hS hdo hrec hread hfine e).1
    exact ⟨h, lastMembers_fine hS hdo h⟩
  | .union l r => by
    have hm : MembersFine E (visitor E c rec (.union l r)).members := by
      intro P s loc ms s' hw hc ht hf hr
      obtain ⟨m, s1, r1, r2⟩ := M.bind_ok.1 hr
      obtain ⟨_, s2, r3, r4⟩ := M.bind_ok.1 r2
      obtain ⟨ms', s3, r5, r6⟩ := M.bind_ok.1 r4
      obtain ⟨_, rfl⟩ := M.ret_ok.1 r6
      obtain ⟨hw2, hc2⟩ := part_w hS (visitor_run hS hrec l).1 hw hc r1 r3
      have h1 := Read.part_reads hS (Read.visitor_reads hg hS hrec hread l).1 hw hc ht r1 r3
      have hf2 := part_fine hS hdo (visitor_fine hg hS hdo hrec hread hfine l).1 hw hc ht hf r1 r3
      exact (visitor_fine hg hS hdo hrec hread hfine r).2 P s2 loc _ _ hw2 hc2 h1.tied hf2 r5
    exact ⟨visitUnion_fine hg hS hdo (visitor_run hS hrec (.union l r)).2 (Read.visitor_reads hg hS hrec hread (.union l r)).2 hm, hm⟩

/-! ## One type -/

theorem forEach_fine (hrec : RecSpec E anyCtl rec) (hread : ReadRec E rec) (hfine : RecFine E rec) : ∀ (l : List Addr) {s s' : St}, W E P s → Calm P s → Tied E s → Fine s →
    (∀ x ∈ l, IsBase s x) → M.forEach rec l s = (.ok (), s') → Fine s'
  | [], s, s', _, _, ht, hf, _, hr => by
    obtain ⟨_, rfl⟩ := M.ret_ok.1 hr
    exact hf
  | x :: l, s, s', hw, hc, ht, hf, hl, hr => by
    obtain ⟨_, s1, r1, r2⟩ := M.bind_ok.1 hr
    obtain ⟨hw1, _, g1, _⟩ := (hrec P s x hw trivial hc (hl x (by simp))).ok r1
    have h1 := hread P s x s1 hw hc ht (hl x (by simp)) r1
    exact forEach_fine hrec hread hfine l hw1 (hc.mono g1) h1.tied (hfine P s x s1 hw hc ht hf (hl x (by simp)) r1) (fun y hy => g1.isBase (hl y (by simp [hy]))) r2

/-- Giving the target a shape at the end, when all it is made from has been resolved. -/
theorem like_fine (hS : ∀ loc v, Load.Sub E anyCtl allPaths c loc v) (hdo : CallsDo c) (hw : W E P s) (hf : Fine s) (hb : s.base a = some b)
    (hn : Kind (emptyShape t) ≠ "unknown") (hup : Set b ∨ ∀ x, Up s b x → Concrete s x) (hr : makeConcrete E c a t facets s = (.ok (), s')) : Fine s' := by
  obtain ⟨st, _, _, sh, h1, ht⟩ := made hS hdo hw hb hn hr
  refine hf.step hw st h1 ht fun x hx => ?_
  have hx' : Up s b x := hx.back st.slices st.dts (hw.base a b hb) ⟨rfl, rfl, rfl⟩
  refine ⟨?_, fun ⟨b2, k1, k2⟩ => ?_⟩
  · rcases hup with h | h
    · exact hf.typed a x ⟨b, hb, h, hx'⟩
    · exact h x hx'
  · rw [hb] at k1; cases k1
    exact ⟨b, hb, k2, hx'⟩

/-- The target is as before, or has a shape. -/
theorem same_or_set (h : Solved E noX s s1) (hb : s.base a = some b) : s1.base a = some b ∨ ∃ b1, s1.base a = some b1 ∧ Set b1 := by
  rcases h.later.b a b id hb with ⟨k, _⟩ | ⟨_, _, _, b1, _, k, _, _, ht, _⟩
  · exact .inl k
  · exact .inr ⟨b1, k, typed_set ht⟩

theorem resolveStep_fine (hg : Read.Good E c) (hS : ∀ loc v, Load.Sub E anyCtl allPaths c loc v) (hdo : CallsDo c) (hrec : RecSpec E anyCtl rec) (hread : ReadRec E rec)
    (hfine : RecFine E rec) : RecFine E (resolveStep E c rec) := by
  intro P s a s' hw hc ht hf ha hr
  unfold resolveStep at hr
  obtain ⟨b, s0, r1, r2⟩ := M.bind_ok.1 hr
  obtain ⟨rfl, hb⟩ := getBase_ok r1
  cases hsh : b.shape with
  | none => rw [hsh] at r2; cases r2
  | some sh =>
    rw [hsh] at r2
    cases sh with
    | unknown facets =>
      simp only at r2
      have hu : Unk b := ⟨_, hsh⟩
      obtain ⟨u1, u2, u3⟩ := hf.unk a b hb hu
      cases hlink : b.link with
      | some dt =>
        rw [hlink] at r2
        simp only [resolveLink] at r2
        cases hd : (s0.dts[dt]?).bind (·.shape) with
        | none => rw [hd] at r2; cases r2
        | some l =>
          rw [hd] at r2
          simp only at r2
          obtain ⟨d, hd1, hd2⟩ := Option.bind_eq_some_iff.1 hd
          have hl : IsBase s0 l := by
            obtain ⟨l', h1, h2⟩ := (hw.dt dt d hd1).shape
            rw [hd2] at h1; cases h1; exact h2
          obtain ⟨_, s1, r3, r4⟩ := M.bind_ok.1 r2
          obtain ⟨lb, s2, r5, r6⟩ := M.bind_ok.1 r4
          obtain ⟨rfl, hlb⟩ := getBase_ok r5
          obtain ⟨hw2, _, g2, ⟨lb', hlb', htl⟩, _⟩ := (hrec P s0 l hw trivial hc hl).ok r3
          have hcl : Concrete s2 l := ⟨lb', hlb', htl⟩
          rw [hlb] at hlb'; cases hlb'
          have hk : Kind (emptyShape lb.type) ≠ "unknown" := by
            obtain ⟨sh, _, h1, h2⟩ := htl
            rw [← h1]; exact h2
          have hsol := hread P s0 l s2 hw hc ht hl r3
          have hf2 := hfine P s0 l s2 hw hc ht hf hl r3
          rcases same_or_set hsol hb with h | ⟨b1, h, hs⟩
          · refine like_fine hS hdo hw2 hf2 h hk (.inr fun x hx => ?_) r6
            rcases hx with h | ⟨d', D, h1, h2, h3⟩ | h
            · rw [u1] at h; cases h
            · rw [hlink] at h1; cases h1
              rw [Read.prefix_get hsol.dts hd1] at h2; cases h2
              rw [hd2] at h3; cases h3
              exact hcl
            · rw [u2 (by rw [hlink]; simp)] at h; cases h
          · exact like_fine hS hdo hw2 hf2 h hk (.inl hs) r6
      | none =>
        rw [hlink] at r2
        simp only at r2
        by_cases hcomp : b.type = "composite"
        · rw [if_pos hcomp] at r2
          unfold resolveMultipleInheritance at r2
          obtain ⟨b0, s1, r3, r4⟩ := M.bind_ok.1 r2
          obtain ⟨rfl, hb0⟩ := getBase_ok r3
          rw [hb] at hb0; cases hb0
          obtain ⟨_, s2, r5, r6⟩ := M.bind_ok.1 r4
          cases hh : (s1.slice b.inherits).head? with
          | none => rw [hh] at r6; cases r6
          | some i =>
            rw [hh] at r6
            simp only at r6
            obtain ⟨ib, s3, r7, r8⟩ := M.bind_ok.1 r6
            obtain ⟨rfl, hib⟩ := getBase_ok r7
            obtain ⟨hw3, _, g3, hall, _⟩ := (forEach_run hrec (s1.slice b.inherits) hw trivial hc (slices_isBase hw)).ok r5
            obtain ⟨ib', hib', hti⟩ := hall i (List.mem_of_mem_head? hh)
            rw [hib] at hib'; cases hib'
            have hk : Kind (emptyShape ib.type) ≠ "unknown" := by
              obtain ⟨sh, _, h1, h2⟩ := hti
              rw [← h1]; exact h2
            have hsol := Read.forEach_reads hrec hread _ hw hc ht (slices_isBase hw) r5
            have hf3 := forEach_fine hrec hread hfine _ hw hc ht hf (slices_isBase hw) r5
            rcases same_or_set hsol hb with h | ⟨b1, h, hs⟩
            · refine like_fine hS hdo hw3 hf3 h hk (.inr fun x hx => ?_) r8
              rcases hx with h | ⟨d', D, h1, _⟩ | h
              · rw [u1] at h; cases h
              · rw [hlink] at h1; cases h1
              · rw [slice_prefix hsol.later.slices (hw.base a b hb).inherits] at h
                exact hall x h
            · exact like_fine hS hdo hw3 hf3 h hk (.inl hs) r8
        · rw [if_neg hcomp] at r2
          cases hp : parseTypeExpression b.type with
          | none => rw [hp] at r2; cases r2
          | some tree =>
            rw [hp] at r2
            simp only at r2
            have hinh : b.inherits = none := by
              cases hi : b.inherits with
              | none => rfl
              | some i => exact absurd (u3 (by rw [hi]; simp)) hcomp
            refine (visitor_fine hg hS hdo hrec hread hfine tree).1 P s0 a b facets s' hw hc ht hf hb hsh ⟨hlink, hinh, u1⟩ (fun s1 _ hres => ?_) r2
            exact (hres a b id hb hu).imp id fun h => h facets tree hsh hlink hcomp hp
    | _ =>
      obtain ⟨_, rfl⟩ := M.ret_ok.1 r2
      exact hf

/-- Resolving a type. -/
theorem resolveShape_fine (E : Env) : ∀ n, RecFine E (resolveShape E n)
  | 0 => fun _ _ _ _ _ _ _ _ _ hr => by cases hr
  | n + 1 => resolveStep_fine (Read.good E n) (fun _ _ => (specs (K := anyCtl) trivial (anyRegs E) n).sub fun _ _ _ _ _ => trivial) (calls_do n)
      (resolveShape_run trivial (anyRegs E) n) (Read.resolveShape_reads E n) (resolveShape_fine E n)

/-! ## A whole parse -/

theorem Fine.same (h : Fine s) (hb : s'.bases = s.bases) (hsl : s'.slices = s.slices) (hd : s'.dts = s.dts) : Fine s' := by
  have hbase : ∀ x, s'.base x = s.base x := fun x => by simp only [St.base, hb]
  have hslice : ∀ i, s'.slice i = s.slice i := fun i => by simp only [St.slice, hsl]
  have he : ∀ z x, Edge s' z x → Edge s z x := fun z x ⟨b, h1, h2, h3⟩ => ⟨b, hbase z ▸ h1, h2, by unfold Up at h3 ⊢; rw [← hslice, ← hd]; exact h3⟩
  refine ⟨fun z => ?_, fun z x hz => ?_, fun z b hz => h.unk z b (hbase z ▸ hz)⟩
  · induction h.acc z with
    | intro z _ ih => exact ⟨z, fun x hx => ih x (he z x hx)⟩
  · obtain ⟨b, h1, h2⟩ := h.typed z x (he z x hz)
    exact ⟨b, (hbase x).trans h1, h2⟩

theorem resolveLoop_fine (n : Nat) : ∀ (m : Nat) (good : Bool) (s s' : St), W E noPerm s → Tied E s → Fine s → resolveLoop E n m good s = (.ok (), s') → Fine s'
  | m, good, s, s', hw, ht, hf, h => by
    unfold resolveLoop at h
    cases hu : s.unresolved with
    | nil =>
      rw [hu] at h
      simp only at h
      split at h
      · cases h; exact hf
      · cases h
    | cons a l =>
      rw [hu] at h
      cases m with
      | zero => simp at h
      | succ m =>
        simp only at h
        obtain ⟨r, s1, h1, h2⟩ := M.bind_ok.1 h
        obtain ⟨_, s2, h3, h4⟩ := M.bind_ok.1 h2
        cases h3
        have hc : Calm noPerm s := fun _ hp => hp.elim
        have ha : IsBase s a := hw.unresolved a (by rw [hu]; simp)
        have hrun := resolveShape_run (K := anyCtl) trivial (anyRegs E) n noPerm s a hw trivial hc ha
        unfold Load.Run at hrun
        unfold M.attempt at h1
        cases hm : resolveShape E n a s with
        | mk o t =>
          rw [hm] at h1 hrun
          cases o with
          | ok x =>
            simp only [Prod.mk.injEq, Out.ok.injEq] at h1
            obtain ⟨rfl, rfl⟩ := h1
            obtain ⟨hw1, _, g1, hc1, r1⟩ := hrun
            obtain ⟨rest, hrest⟩ := g1.unresolved
            have hu1 : t.unresolved = a :: (l ++ rest) := by rw [← hrest, hu]; rfl
            have k1 := Read.resolveShape_reads E n noPerm s a t hw hc ht ha hm
            have k2 := (Read.call_pop k1.tied).solved k1.tied
            have k3 := resolveShape_fine E n noPerm s a t hw hc ht hf ha hm
            exact resolveLoop_fine n m _ _ s' (hw1.pop hu1 hc1) k2.tied (k3.same rfl rfl rfl) h4
          | err e =>
            simp only [Prod.mk.injEq, Out.ok.injEq] at h1
            obtain ⟨rfl, rfl⟩ := h1
            simp only [Bool.and_false] at h4
            exact absurd h4 (resolveLoop_bad E n m _ _)
          | panic e => simp at h1
          | diverge => simp at h1

theorem fine_empty : Fine {} where
  acc := fun a => ⟨a, fun x ⟨b, hb, _⟩ => by simp [St.base] at hb⟩
  typed := fun a x ⟨b, hb, _⟩ => by simp [St.base] at hb
  unk := fun a b hb => by simp [St.base] at hb

theorem parseFromPath_fine {n m : Nat} {path : String} {f : FragRef} (h : parseFromPath E n m path {} = (.ok f, s')) : Fine s' := by
  unfold parseFromPath at h
  cases hfile : E.file path with
  | none => rw [hfile] at h; cases h
  | some text =>
    rw [hfile] at h
    simp only [parseFragment] at h
    obtain ⟨f', s1, h1, h2⟩ := M.bind_ok.1 h
    obtain ⟨_, s2, h3, h4⟩ := M.bind_ok.1 h2
    obtain ⟨_, s3, h5, h6⟩ := M.bind_ok.1 h4
    cases h6
    have hrun := decodeEntry_keeps (K := anyCtl) trivial (anyRegs E) n hfile trivial
    unfold Load.Run at hrun
    rw [h1] at hrun
    obtain ⟨hw1, _⟩ := hrun
    have k1 := Read.decodeEntry_reads hfile h1
    have hg := decodeEntry_does (E := E) (n := n) (text := text) (path := path) {} fun _ h => by cases h
    rw [h1] at hg
    have hf1 : Fine s1 := by
      refine ⟨fun a => ⟨a, fun x ⟨b, hb, hs, hx⟩ => ?_⟩, fun a x ⟨b, hb, hs, hx⟩ => ?_, fun a b hb hu => ?_⟩
      · exfalso
        have hn := hg.new a b hb (by simp [St.base])
        obtain ⟨q1, q2⟩ := hn.2.1 hs
        rcases hx with h | ⟨d, D, h, _⟩ | h
        · rw [hn.1] at h; cases h
        · rw [q1] at h; cases h
        · rw [q2] at h; cases h
      · exfalso
        have hn := hg.new a b hb (by simp [St.base])
        obtain ⟨q1, q2⟩ := hn.2.1 hs
        rcases hx with h | ⟨d, D, h, _⟩ | h
        · rw [hn.1] at h; cases h
        · rw [q1] at h; cases h
        · rw [q2] at h; cases h
      · have hn := hg.new a b hb (by simp [St.base])
        exact ⟨hn.1, hn.2.2 hu⟩
    have k2 := resolveLoop_fine n m true s1 s2 hw1 k1.tied hf1 h3
    have k3 : Read.Linked s2 s' := Read.resolveExtLoop_linked _ _ _ _ h5
    obtain ⟨_, exts, rfl⟩ := k3
    exact k2.same rfl rfl rfl

end

end GoRaml.Lines
