import Verif.Lemmas.ReadLater

/-!
# Decoding fidelity: resolving references
-/

namespace GoRaml.Read

open GoRaml GoRaml.Spec GoRaml.Load

/-- No base. -/
abbrev noX : Addr → Prop := fun _ => False

/-- What a piece of resolution does to its target `a`, which was `b`. -/
def Becomes (E : Env) (s : St) (a : Addr) (b : Base) (s' : St) (Q : Base → Prop) : Prop :=
  Solved E (· = a) s s' ∧ ∃ b', s'.base a = some b' ∧ SameHead b b' ∧ MapsIn s' (since s) b'.shape ∧ Typed b' ∧ Q b'

/-- The contract of the recursive calls. -/
def ReadRec (E : Env) (rec : Addr → M St Unit) : Prop :=
  ∀ P s a s', W E P s → Calm P s → Tied E s → IsBase s a → rec a s = (.ok (), s') → Solved E noX s s'

/-- The contract of a visitor for a tree and its target. -/
def ReadAt (E : Env) (tree : Rdt) (at_ : Addr → Option (List YNode) → M St Unit) : Prop :=
  ∀ P s a b facets s', W E P s → Calm P s → Tied E s → s.base a = some b → b.shape = some (.unknown facets) →
    (∀ n s' b', ResolvedTo E n s' b b' facets → TreeHas E s' b.location (D E True n s' b.location) facets b' tree) → at_ a facets s = (.ok (), s') →
    Becomes E s a b s' fun b' => TreeHas E s' b.location (D E True (since s) s' b.location) facets b' tree

/-- The contract of a visitor for the members of a union. -/
def ReadMembers (E : Env) (members : String → M St (List Addr)) : Prop :=
  ∀ P s loc l s', W E P s → Calm P s → Tied E s → members loc s = (.ok l, s') → Solved E noX s s'

section
variable {E : Env} {c : Calls} {rec : Addr → M St Unit} {P : Perm} {s s1 s2 s3 s' : St} {a : Addr} {b b1 : Base} {facets : Option (List YNode)} {t : String}

theorem Solved.weaken {X X' : Addr → Prop} (h : Solved E X s s') (hX : ∀ z, X z → X' z) : Solved E X' s s' :=
  { h with later := h.later.mono ⟨fun _ hz hx => hz (hX _ hx), fun _ h => h, fun _ h => h⟩ .rfl }

theorem apart_at : (allBut (· = a)).Apart (atBase a) := ⟨fun _ h1 h2 => h1 h2, fun _ _ h => h, fun _ _ h => h⟩

/-- Giving the target a concrete shape. -/
theorem made_solved {rg : Region} {sh : Shape} (hm : Made E s a t facets b rg s' sh) (hb : s.base a = some b) (hty : Typed b → b.type = t) :
    Solved E (· = a) s s' ∧ MapsIn s' (since s) (some sh) ∧
      Has E s' b.location (D E True (since s) s' b.location) True t facets { b with type := t, shape := some sh } := by
  have hle : rg.Le (since s) := hm.inv.le.trans between_le_since
  refine ⟨⟨hm.inv.tied, hm.inv.chg.bases, ?_, hm.inv.new.mono (fun h => h.elim) hle, hm.inv.chg.libs, hm.inv.chg.dts⟩, fun f hf => ?_, ?_⟩
  · refine (hm.inv.chg.laterT (Nat.le_of_eq hm.inv.tied0.len.symm) apart_at fun z bz hz hbz hbt => ?_).mono .rfl Region.none_le
    subst hz
    rw [hb] at hbz; cases hbz
    exact ⟨_, hm.base, hm.has.typed, (hty hbt).symm⟩
  · have := hm.maps f (Option.some.inj hf)
    exact ⟨fun i hi => ⟨(this.1 i hi).2.1, (this.1 i hi).2.2⟩, fun i hi => ⟨(this.2 i hi).2.1, (this.2 i hi).2.2⟩⟩
  · exact Has.carry (.refl fun _ _ _ (hd : D E False rg s' b.location _ _ _) => hd.mono (fun h => h.elim) hle) (fun _ _ _ _ => ⟨rfl, rfl⟩) rfl hm.has

/-- The target is as before, or has been resolved in the meantime. -/
theorem again (ht : Tied E s) (h : Solved E noX s s1) (hb : s.base a = some b) (hsh : b.shape = some (.unknown facets))
    (hres : ∀ b1, ResolvedTo E (since s) s1 b b1 facets → Has E s1 b.location (D E True (since s) s1 b.location) True t facets b1) :
    ∃ b1, s1.base a = some b1 ∧ SameHead b b1 ∧ Starts E s1 a b1 t facets ∧ (Typed b1 → b1.type = t) ∧ (b1 = b ∨ ResolvedTo E (since s) s1 b b1 facets) := by
  have hu : Unk b := ⟨_, hsh⟩
  rcases h.later.b a b id hb with ⟨k1, k2⟩ | ⟨_, _, facets', b1, e1, k1, hh, hmaps, hty, hr⟩
  · exact ⟨b, k1, .rfl, ⟨[], k2.trans (ht.clear a b hb hu), .inl rfl⟩, fun h => absurd h hu.not_typed, .inl rfl⟩
  · rw [hsh] at e1; cases e1
    have hhas := hres b1 hr
    refine ⟨b1, k1, hh, ?_, fun _ => hhas.type, .inr hr⟩
    have hlt : a < s1.fmaps.length := by rw [h.tied.len]; exact lt_of_get k1
    refine ⟨_, List.getElem?_eq_getElem hlt, .inr ?_⟩
    have := hhas.custom
    rw [h.tied.own a b1 k1] at this
    simp only [St.facetMap, List.getElem?_eq_getElem hlt, Option.getD_some] at this
    rw [hh.location]; exact this

/-- Making the target concrete after a nested piece of resolution. -/
theorem remake (hg : Good E c) (h : Solved E noX s s1) (ha : a < s.bases.length) (hb1 : s1.base a = some b1) (hk : Kind (emptyShape t) ≠ "unknown")
    (hs : Starts E s1 a b1 t facets) (hty : Typed b1 → b1.type = t) (hr : makeConcrete E c a t facets s1 = (.ok (), s2)) {loc : String} (hloc : b1.location = loc) :
    ∃ sh, Solved E (· = a) s s2 ∧ Solved E (· = a) s1 s2 ∧ s2.base a = some { b1 with type := t, shape := some sh } ∧ MapsIn s2 (since s) (some sh) ∧
      Has E s2 loc (D E True (since s) s2 loc) True t facets { b1 with type := t, shape := some sh } := by
  subst hloc
  obtain ⟨rg, sh, hm⟩ := makeConcrete_reads hg h.tied hb1 hk hs hr
  obtain ⟨k1, k2, k3⟩ := made_solved hm hb1 hty
  refine ⟨sh, (h.weaken fun _ h => h.elim).trans k1 fun z hz => ⟨hz, hz ▸ ha⟩, k1, hm.base, k2.mono h.since_le, ?_⟩
  exact Has.carry (.refl fun _ _ _ (hd : D E True (since s1) s2 b1.location _ _ _) => hd.mono id h.since_le) (fun _ _ _ _ => ⟨rfl, rfl⟩) rfl k3

/-- Making the target concrete to begin with. -/
theorem make (hg : Good E c) (ht : Tied E s) (hb : s.base a = some b) (hu : Unk b) (hk : Kind (emptyShape t) ≠ "unknown")
    (hr : makeConcrete E c a t facets s = (.ok (), s2)) :
    ∃ sh, Solved E (· = a) s s2 ∧ s2.base a = some { b with type := t, shape := some sh } ∧ MapsIn s2 (since s) (some sh) ∧
      Has E s2 b.location (D E True (since s) s2 b.location) True t facets { b with type := t, shape := some sh } := by
  obtain ⟨sh, k1, _, k2⟩ := remake hg (.refl ht) (lt_of_get hb) hb hk ⟨[], ht.clear a b hb hu, .inl rfl⟩ (fun h => absurd h hu.not_typed) hr rfl
  exact ⟨sh, k1, k2⟩

/-- Changing the target once it is typed. -/
theorem retouch {sl : List (List Addr)} {g : Base → Base} (h : Solved E (· = a) s s2) (ha : a < s.bases.length) (hb : s2.base a = some b1)
    (ht : Typed (g b1)) (hty : (g b1).type = b1.type) (hf : (g b1).facets = b1.facets) :
    ∃ s3, s3 = { s2 with slices := s2.slices ++ sl, bases := s2.bases.modify a g } ∧ Solved E (· = a) s s3 ∧ Later E True (allBut (· = a)) .none s2 s3 ∧
      (∀ loc, Carry s2 s3 (D E True (since s) s2 loc) (D E True (since s) s3 loc)) ∧ s3.base a = some (g b1) := by
  refine ⟨_, rfl, ?_⟩
  have hbase : ({ s2 with slices := s2.slices ++ sl, bases := s2.bases.modify a g } : St).base a = some (g b1) := base_modify_eq hb
  have htied : Tied E { s2 with slices := s2.slices ++ sl, bases := s2.bases.modify a g } := by
    have h1 : Tied E { s2 with bases := s2.bases.modify a g } := h.tied.updBase fun b0 hb0 => by
      rw [hb] at hb0; cases hb0
      exact ⟨hf, fun hu => absurd ht hu.not_typed⟩
    exact h1.same rfl rfl rfl (List.prefix_refl _) rfl
  have hc : Chg (atBase a) s2 { s2 with slices := s2.slices ++ sl, bases := s2.bases.modify a g } :=
    { chg_updBase (s := s2) a g with slices := List.prefix_append _ _ }
  have hl : Later E True (allBut (· = a)) .none s2 { s2 with slices := s2.slices ++ sl, bases := s2.bases.modify a g } := by
    refine hc.laterT (Nat.le_of_eq h.tied.len.symm) apart_at fun z bz hz hbz _ => ?_
    subst hz
    rw [hb] at hbz; cases hbz
    exact ⟨_, hbase, ht, hty⟩
  have hsl := since_le_allBut (X := (· = a)) fun z hz => hz ▸ ha
  have hsolve : Solved E (· = a) s2 { s2 with slices := s2.slices ++ sl, bases := s2.bases.modify a g } :=
    ⟨htied, hc.bases, hl.mono .rfl Region.none_le,
      ⟨fun _ _ h1 h2 => absurd (lt_of_get h2) (Nat.not_lt.2 h1), fun _ _ h1 h2 => absurd (lt_of_get h2) (Nat.not_lt.2 h1)⟩, List.prefix_refl _, List.prefix_refl _⟩
  refine ⟨h.trans hsolve fun z hz => ⟨hz, hz ▸ ha⟩, hl, fun loc v m x hd => ?_, hbase⟩
  obtain ⟨k1, k2⟩ := D.carry (loc := loc) (hl.mono hsl .rfl) v m x hd
  exact ⟨k1.mono id (Region.Le.rfl.or Region.none_le), k2⟩

/-- The same but for other fields. -/
theorem Has.touched {b2 : Base} {loc : String} {R R' : YNode → String → Addr → Prop} {own : Prop} (hc : Carry s2 s3 R R')
    (hm : ∀ sh, b1.shape = some sh → SameMaps s2 s3 sh) (hf : s3.fmaps = s2.fmaps) (h1 : b2.type = b1.type) (h2 : b2.shape = b1.shape) (h3 : b2.facets = b1.facets)
    (h : Has E s2 loc R own t facets b1) : Has E s3 loc R' own t facets b2 where
  type := h1.trans h.type
  typed := by
    obtain ⟨sh, k1, k2, k3⟩ := h.typed
    exact ⟨sh, h2.trans k1, by rw [h1]; exact k2, k3⟩
  reads := fun sh hs => FacetsRead.carry hc (hm sh (h2 ▸ hs)) (h.reads sh (h2 ▸ hs))
  custom := by
    have : s3.facetMap b2.facets = s2.facetMap b1.facets := by rw [h3]; simp only [St.facetMap, hf]
    rw [this]; exact h.custom

theorem sameMaps_of {sl : List (List Addr)} {g : Base → Base} (sh : Shape) : SameMaps s2 { s2 with slices := s2.slices ++ sl, bases := s2.bases.modify a g } sh :=
  fun _ _ => ⟨rfl, rfl⟩

/-! ## References -/

theorem visitReference_reads (hg : Good E c) (hrec : RecSpec E anyCtl rec) (hread : ReadRec E rec) (x : String) (y : Option String) :
    ReadAt E (.ref x y) (visitReference E c rec (refText x y)) := by
  intro P s a b facets s' hw hc ht hb hsh hcons hr
  unfold visitReference at hr
  obtain ⟨b0, s0, r1, r2⟩ := M.bind_ok.1 hr
  obtain ⟨rfl, hb0⟩ := getBase_ok r1
  rw [hb] at hb0; cases hb0
  obtain ⟨ref, s1, r3, r4⟩ := M.bind_ok.1 r2
  obtain ⟨href, rfl⟩ := M.lift_ok.1 r3
  obtain ⟨rb0, s1, r5, r6⟩ := M.bind_ok.1 r4
  obtain ⟨rfl, _⟩ := getBase_ok r5
  split at r6
  · cases r6
  obtain ⟨_, s2, r7, r8⟩ := M.bind_ok.1 r6
  obtain ⟨rb, s3, r9, r10⟩ := M.bind_ok.1 r8
  obtain ⟨rfl, hrb⟩ := getBase_ok r9
  obtain ⟨_, s4, r11, r12⟩ := M.bind_ok.1 r10
  obtain ⟨_, s5, r13, r14⟩ := M.bind_ok.1 r12
  have hib : IsBase s1 ref := getReferenced_isBase hw (fun l hl => hl.types) href
  obtain ⟨_, _, _, ⟨rb', hrb', htr⟩, _⟩ := (hrec P s1 ref hw trivial hc hib).ok r7
  rw [hrb] at hrb'; cases hrb'
  have hk : Kind (emptyShape rb.type) ≠ "unknown" := by
    obtain ⟨sh, _, h1, h2⟩ := htr
    rw [← h1]; exact h2
  have hsol := hread P s1 ref s3 hw hc ht hib r7
  have ha : a < s1.bases.length := lt_of_get hb
  have href3 := hsol.later.refs trivial _ _ _ href
  obtain ⟨b1, hb1, hh1, hst, hty, _⟩ := again (t := rb.type) ht hsol hb hsh fun b1 hr1 => by
    obtain ⟨ref', rb', k1, k2, k3, k4⟩ := hcons _ _ _ hr1
    rw [href3] at k1; cases k1
    rw [hrb] at k2; cases k2
    exact k4
  obtain ⟨sh, h1, h2, h3, h4, h5⟩ := remake hg hsol ha hb1 hk hst hty r11 hh1.location
  obtain ⟨rb2, m1, m2, m3⟩ := h2.later.types trivial _ _ hrb htr
  have href4 := h2.later.refs trivial _ _ _ href3
  have key : ∀ (sl : List (List Addr)) (g : Base → Base), (∀ b, (g b).type = b.type ∧ (g b).shape = b.shape ∧ SameHead b (g b)) →
      Becomes E s1 a b { s4 with slices := s4.slices ++ sl, bases := s4.bases.modify a g } fun b' =>
        TreeHas E { s4 with slices := s4.slices ++ sl, bases := s4.bases.modify a g } b.location
          (D E True (since s1) { s4 with slices := s4.slices ++ sl, bases := s4.bases.modify a g } b.location) facets b' (.ref x y) := by
    intro sl g hgb
    obtain ⟨e1, e2, e3⟩ := hgb { b1 with type := rb.type, shape := some sh }
    have htg : Typed (g { b1 with type := rb.type, shape := some sh }) := by
      obtain ⟨sh', q1, q2, q3⟩ := h5.typed
      exact ⟨sh', e2.trans q1, by rw [e1]; exact q2, q3⟩
    obtain ⟨s6, rfl, k1, k2, k3, k4⟩ := retouch (sl := sl) (g := g) h1 ha h3 htg e1 e3.facets
    obtain ⟨rb3, n1, n2, n3⟩ := k2.types trivial _ _ m1 m2
    refine ⟨k1, _, k4, hh1.trans (SameHead.trans ?_ e3), ?_, htg, ref, rb3, k2.refs trivial _ _ _ href4, n1, n2, ?_⟩
    · exact ⟨rfl, rfl, rfl, rfl, rfl, rfl, rfl, rfl, rfl, rfl, rfl, rfl⟩
    · rw [e2]; exact h4
    · rw [n3, m3]
      exact Has.touched (k3 _) (fun sh _ => sameMaps_of sh) rfl e1 e2 e3.facets h5
  unfold Heap.updBase at r13
  cases r13
  cases facets with
  | none =>
    unfold Heap.updBase at r14
    cases r14
    have := key [] ((fun b => { b with «alias» := some ref }) ∘ fun b => { b with typeLabel := refText x y })
      fun b => ⟨rfl, rfl, rfl, rfl, rfl, rfl, rfl, rfl, rfl, rfl, rfl, rfl, rfl, rfl⟩
    simpa only [List.append_nil, List.modify_modify_eq] using this
  | some l =>
    have h6 : ({ s4 with bases := s4.bases.modify a fun b => { b with typeLabel := refText x y } } : St).base a = some { { b1 with type := rb.type, shape := some sh } with typeLabel := refText x y } :=
      base_modify_eq h3
    simp only [appendInherits, h6] at r14
    obtain ⟨i, s6, r15, r16⟩ := M.bind_ok.1 r14
    unfold Heap.newSlice at r15
    cases r15
    unfold Heap.updBase at r16
    cases r16
    have := key [({ s4 with bases := s4.bases.modify a fun b => { b with typeLabel := refText x y } } : St).slice b1.inherits ++ [ref]]
      ((fun b => { b with inherits := some s4.slices.length }) ∘ fun b => { b with typeLabel := refText x y })
      fun b => ⟨rfl, rfl, rfl, rfl, rfl, rfl, rfl, rfl, rfl, rfl, rfl, rfl, rfl, rfl⟩
    simpa only [List.modify_modify_eq] using this

theorem prim_reads (hg : Good E c) (p : Prim) : ReadAt E (.prim p) (fun a _ => makeConcrete E c a p.text none) := by
  intro P s a b facets s' hw hc ht hb hsh hcons hr
  have hn : Kind (emptyShape p.text) ≠ "unknown" := by cases p <;> decide +kernel
  obtain ⟨sh, h1, h2, h3, h4⟩ := make hg ht hb ⟨_, hsh⟩ hn hr
  exact ⟨h1, _, h2, ⟨rfl, rfl, rfl, rfl, rfl, rfl, rfl, rfl, rfl, rfl, rfl, rfl⟩, h3, h4.typed, h4⟩

/-! ## Parts of expressions -/

theorem parse_empty : parseTypeExpression "" = none := by decide +kernel

theorem part_reads (hS : ∀ loc v, Load.Sub E anyCtl allPaths c loc v) {tree : Rdt} {at_ : Addr → Option (List YNode) → M St Unit} (hat : ReadAt E tree at_) {loc : String} {m : Addr}
    (hw : W E P s) (hc : Calm P s) (ht : Tied E s) (h1 : makeNewShape E c "" "" loc s = (.ok m, s1)) (h2 : at_ m none s1 = (.ok (), s2)) : Solved E noX s s2 := by
  obtain ⟨hw1, _, g1, ⟨⟨e, bm, hbm, _, htm, hsm⟩, _⟩⟩ := (makeNewShape_run hS hw trivial).ok h1
  rw [unk_empty] at hsm
  rw [← e] at hw1
  have hc1 : Calm (P.addB m) s1 := (hc.mono g1).add hbm (.inl ⟨_, hsm⟩)
  unfold makeNewShape at h1
  obtain ⟨m', s0, r1, r2⟩ := M.bind_ok.1 h1
  obtain ⟨u, s0', r3, r4⟩ := M.bind_ok.1 r2
  obtain ⟨rfl, rfl⟩ := M.ret_ok.1 r4
  have hb : s0 = born s "" loc ∧ m' = s.bases.length := by
    unfold makeBaseShape at r1
    cases r1; exact ⟨rfl, rfl⟩
  obtain ⟨rfl, rfl⟩ := hb
  have hborn := call_born (name := "") (loc := loc) ht
  have hbb : (born s "" loc).base s.bases.length = some (newBaseOf s "" loc) := by simp [St.base]
  have := makeConcrete_unknown hbb (by rw [unk_empty]; rfl) r3
  subst this
  have hc2 := chg_updBase (s := born s "" loc) s.bases.length fun b => { b with type := "", shape := some (.unknown none) }
  have ht2 : Tied E { born s "" loc with bases := (born s "" loc).bases.modify s.bases.length fun b => { b with type := "", shape := some (.unknown none) } } :=
    hborn.tied.updBase fun b0 hb0 => ⟨rfl, fun _ => by simp [← ht.len]⟩
  refine Solved.fresh ht (hborn.chg.trans (Nat.le_of_eq ht.len) hc2 ⟨fun z hz e => ?_, fun _ _ h => h, fun _ _ h => h⟩) ht2 rfl rfl
    (hat _ _ _ _ _ _ hw1 hc1 ht2 hbm hsm (fun n s' b' hr => ?_) h2).1 (Nat.le_refl _)
  · cases e; exact absurd hz (Nat.lt_irrefl _)
  · exfalso
    have hlink : bm.link = none := by
      rw [base_modify_eq hbb] at hbm
      cases hbm; rfl
    unfold ResolvedTo at hr
    simp only [hlink, htm] at hr
    rw [if_neg (by decide)] at hr
    obtain ⟨tr, k, _⟩ := hr
    rw [parse_empty] at k; cases k

theorem nil_reads (hg : Good E c) {loc : String} {m : Addr} (ht : Tied E s) (h1 : makeNewShape E c "" "nil" loc s = (.ok m, s1)) : Solved E noX s s1 := by
  unfold makeNewShape at h1
  obtain ⟨m', s0, r1, r2⟩ := M.bind_ok.1 h1
  obtain ⟨u, s0', r3, r4⟩ := M.bind_ok.1 r2
  obtain ⟨rfl, rfl⟩ := M.ret_ok.1 r4
  have hb : s0 = born s "" loc ∧ m' = s.bases.length := by
    unfold makeBaseShape at r1
    cases r1; exact ⟨rfl, rfl⟩
  obtain ⟨rfl, rfl⟩ := hb
  have hborn := call_born (name := "") (loc := loc) ht
  have hbb : (born s "" loc).base s.bases.length = some (newBaseOf s "" loc) := by simp [St.base]
  have hfm : (born s "" loc).fmaps[s.bases.length]? = some [] := by simp [← ht.len]
  obtain ⟨rg, sh, hm⟩ := makeConcrete_reads hg hborn.tied hbb (by decide +kernel) ⟨[], hfm, .inl rfl⟩ r3
  obtain ⟨k1, _⟩ := made_solved hm hbb fun ⟨sh, h, _⟩ => by cases h
  exact Solved.fresh ht hborn.chg hborn.tied rfl rfl k1 (Nat.le_refl _)

theorem kept {b1 : Base} (h : Solved E noX s1 s2) (hb : s1.base a = some b1) (ht : Typed b1) : s2.base a = some b1 ∧ s2.fmaps[a]? = s1.fmaps[a]? := by
  rcases h.later.b a b1 id hb with h | ⟨_, hu, _⟩
  · exact h
  · exact absurd ht hu.not_typed

/-- The facets are still there after the parts have been visited. -/
theorem has_kept {own : Prop} {loc : String} {b1 : Base} (h : Solved E (· = a) s s1) (h' : Solved E noX s1 s2) (hb : s1.base a = some b1)
    (hm : MapsIn s1 (since s) b1.shape) (hh : Has E s1 loc (D E True (since s) s1 loc) own t facets b1) :
    MapsIn s2 (since s) b1.shape ∧ Has E s2 loc (D E True (since s) s2 loc) own t facets b1 := by
  have hl := h'.later.mono (Region.Le.trans (since_le_allBut (s := s) (X := noX) fun _ h => h.elim) .rfl) h.since_le
  refine ⟨hm.later hl, ?_⟩
  refine Has.carry (fun v n x hd => ?_) (fun sh hsh => MapsIn.same (by rw [← hsh]; exact hm) hl) (facetMap_eq (h.tied.own _ _ hb) (kept h' hb hh.typed).2) hh
  obtain ⟨k1, k2⟩ := D.carry (loc := loc) hl v n x hd
  exact ⟨k1.mono id (Region.Le.rfl.or .rfl), k2⟩

theorem mapsIn_not {rg : Region} {o : Option Shape} {sh : Shape} (h : o = some sh) (hk : Kind sh ≠ "object") : MapsIn s rg o := fun f hf => by
  rw [h] at hf; cases hf; exact absurd rfl hk

/-- Storing the members of a union. -/
theorem setAnyOf_reads {l : List Addr} {b : Base} {sh : Shape} (ha : a < s.bases.length) (h : Solved E (· = a) s s1) (h' : Solved E noX s1 s2)
    (hb : s1.base a = some { b with type := "union", shape := some sh }) (hm : MapsIn s1 (since s) (some sh))
    (hh : Has E s1 b.location (D E True (since s) s1 b.location) True "union" facets { b with type := "union", shape := some sh })
    (hr : setAnyOf a l s2 = (.ok (), s')) :
    Becomes E s a b s' fun b' => Has E s' b.location (D E True (since s) s' b.location) True "union" facets b' := by
  unfold setAnyOf at hr
  obtain ⟨i, s3, r1, r2⟩ := M.bind_ok.1 hr
  unfold Heap.newSlice at r1
  cases r1
  unfold setShape Heap.updBase at r2
  cases r2
  have hb2 := (kept h' hb hh.typed).1
  have hs2 := (h.trans h' fun _ h => h.elim)
  have ht : Typed { b with type := "union", shape := some (.union (some s2.slices.length) none) } := ⟨_, rfl, rfl, by simp [Kind]⟩
  obtain ⟨s6, e6, k1, k2, k3, k4⟩ := retouch (sl := [l]) (g := fun b => { b with shape := some (.union (some s2.slices.length) none) }) hs2 ha hb2 ht rfl rfl
  rw [show ({ s2 with slices := s2.slices ++ [l], bases := s2.bases.modify a fun b => { b with shape := some (.union (some s2.slices.length) none) } } : St) = s6 from e6.symm]
  obtain ⟨_, hk⟩ := has_kept h h' hb hm hh
  refine ⟨k1, _, k4, ⟨rfl, rfl, rfl, rfl, rfl, rfl, rfl, rfl, rfl, rfl, rfl, rfl⟩, mapsIn_not rfl (by simp [Kind]), ht, rfl, ht, fun sh' hs' => ?_, ?_⟩
  · cases hs'; trivial
  have := hk.custom
  rw [e6]; exact this

theorem visitUnion_reads (hg : Good E c) (hS : ∀ loc v, Load.Sub E anyCtl allPaths c loc v) {l r : Rdt} {members : String → M St (List Addr)} (hm : ReadMembers E members) :
    ReadAt E (.union l r) (visitUnion E c members) := by
  intro P s a b facets s' hw hc ht hb hsh hcons hr
  unfold visitUnion at hr
  obtain ⟨b0, s0, r1, r2⟩ := M.bind_ok.1 hr
  obtain ⟨rfl, hb0⟩ := getBase_ok r1
  rw [hb] at hb0; cases hb0
  obtain ⟨_, s1, r3, r4⟩ := M.bind_ok.1 r2
  obtain ⟨ss, s2, r5, r6⟩ := M.bind_ok.1 r4
  obtain ⟨hw1, _, g1, _⟩ := (concrete_run hS hw trivial hb kind_union_ne).ok r3
  obtain ⟨sh, h1, h2, h3, h4⟩ := make hg ht hb ⟨_, hsh⟩ kind_union_ne r3
  have hc1 : Calm P s1 := hc.step g1 fun _ => ⟨_, h2, .inr h4.typed⟩
  exact setAnyOf_reads (lt_of_get hb) h1 (hm P s1 _ _ _ hw1 hc1 h1.tied r5) h2 h3 h4 r6

theorem visitOptional_reads (hg : Good E c) (hS : ∀ loc v, Load.Sub E anyCtl allPaths c loc v) {e : Rdt} {v : Visitor} (hat : ReadAt E e v.at_) :
    ReadAt E (.optional e) (visitOptional E c v) := by
  intro P s a b facets s' hw hc ht hb hsh hcons hr
  unfold visitOptional at hr
  obtain ⟨b0, s0, r1, r2⟩ := M.bind_ok.1 hr
  obtain ⟨rfl, hb0⟩ := getBase_ok r1
  rw [hb] at hb0; cases hb0
  obtain ⟨_, s1, r3, r4⟩ := M.bind_ok.1 r2
  obtain ⟨m, s2, r5, r6⟩ := M.bind_ok.1 r4
  obtain ⟨_, s3, r7, r8⟩ := M.bind_ok.1 r6
  obtain ⟨m', s4, r9, r10⟩ := M.bind_ok.1 r8
  obtain ⟨hw1, _, g1, _⟩ := (concrete_run hS hw trivial hb kind_union_ne).ok r3
  obtain ⟨sh, h1, h2, h3, h4⟩ := make hg ht hb ⟨_, hsh⟩ kind_union_ne r3
  have hc1 : Calm P s1 := hc.step g1 fun _ => ⟨_, h2, .inr h4.typed⟩
  have k1 := part_reads hS hat hw1 hc1 h1.tied r5 r7
  have k2 := nil_reads hg k1.tied r9
  exact setAnyOf_reads (lt_of_get hb) h1 (k1.trans k2 fun _ h => h.elim) h2 h3 h4 r10

theorem visitArray_reads (hg : Good E c) (hS : ∀ loc v, Load.Sub E anyCtl allPaths c loc v) {e : Rdt} {v : Visitor} (hat : ReadAt E e v.at_) :
    ReadAt E (.array e) (visitArray E c v) := by
  intro P s a b facets s' hw hc ht hb hsh hcons hr
  unfold visitArray at hr
  obtain ⟨b0, s0, r1, r2⟩ := M.bind_ok.1 hr
  obtain ⟨rfl, hb0⟩ := getBase_ok r1
  rw [hb] at hb0; cases hb0
  obtain ⟨_, s1, r3, r4⟩ := M.bind_ok.1 r2
  obtain ⟨m, s2, r5, r6⟩ := M.bind_ok.1 r4
  obtain ⟨_, s3, r7, r8⟩ := M.bind_ok.1 r6
  have hka : Kind (emptyShape "array") ≠ "unknown" := by decide +kernel
  obtain ⟨hw1, _, g1, _⟩ := (concrete_run hS hw trivial hb hka).ok r3
  obtain ⟨sh, h1, h2, h3, h4⟩ := make hg ht hb ⟨_, hsh⟩ hka r3
  have hc1 : Calm P s1 := hc.step g1 fun _ => ⟨_, h2, .inr h4.typed⟩
  have k1 := part_reads hS hat hw1 hc1 h1.tied r5 r7
  obtain ⟨_, hk⟩ := has_kept h1 k1 h2 h3 h4
  have h2' := (kept k1 h2 h4.typed).1
  obtain ⟨f, rfl⟩ : ∃ f, sh = .array f := by
    obtain ⟨sh', e1, e2, _⟩ := h4.typed
    cases e1
    exact kind_array (e2.trans (show Kind (emptyShape "array") = "array" by decide +kernel))
  have harr : arrayAt s3 a = f := by simp [arrayAt, St.shapeAt, h2']
  simp only [harr, setArray, Heap.updBase] at r8
  obtain ⟨g, hg1, hg2⟩ : ∃ g : Base → Base, s' = { s3 with bases := s3.bases.modify a g } ∧
      ∀ b f0, b.shape = some (.array f0) → g b = { b with shape := some (.array { f with items := some m }) } :=
    ⟨_, (Prod.mk.inj r8).2.symm, fun b f0 h => by simp only [h]⟩
  have htm : Typed { b with type := "array", shape := some (.array { f with items := some m }) } := ⟨_, rfl, by simp only [Kind]; decide +kernel, by simp [Kind]⟩
  have hgb := hg2 { b with type := "array", shape := some (.array f) } f rfl
  obtain ⟨s6, e6, q1, q2, q3, q4⟩ := retouch (sl := []) (g := g) (h1.trans k1 fun _ h => h.elim) (lt_of_get hb) h2' (by rw [hgb]; exact htm) (by rw [hgb]) (by rw [hgb])
  simp only [List.append_nil] at e6
  rw [hgb] at q4
  rw [← e6] at hg1
  subst hg1
  refine ⟨q1, _, q4, ⟨rfl, rfl, rfl, rfl, rfl, rfl, rfl, rfl, rfl, rfl, rfl, rfl⟩, mapsIn_not rfl (by simp [Kind]), htm, rfl, htm, fun sh' hs' => ?_, ?_⟩
  · cases hs'
    obtain ⟨x1, x2, x3, _⟩ := hk.reads _ rfl
    exact ⟨x1, x2, x3, fun h => h.elim⟩
  · have := hk.custom
    rw [e6]; exact this

theorem group_reads {e : Rdt} {at_ : Addr → Option (List YNode) → M St Unit} (hat : ReadAt E e at_) : ReadAt E (.group e) at_ :=
  fun P s a b facets s' hw hc ht hb hsh hcons hr => hat P s a b facets s' hw hc ht hb hsh hcons hr

theorem lastMembers_reads (hS : ∀ loc v, Load.Sub E anyCtl allPaths c loc v) {e : Rdt} {at_ : Addr → Option (List YNode) → M St Unit} (hat : ReadAt E e at_) :
    ReadMembers E (Visitor.last E c at_).members := by
  intro P s loc l s' hw hc ht hr
  obtain ⟨m, s1, r1, r2⟩ := M.bind_ok.1 hr
  obtain ⟨_, s2, r3, r4⟩ := M.bind_ok.1 r2
  obtain ⟨_, rfl⟩ := M.ret_ok.1 r4
  exact part_reads hS hat hw hc ht r1 r3

theorem visitor_reads (hg : Good E c) (hS : ∀ loc v, Load.Sub E anyCtl allPaths c loc v) (hrec : RecSpec E anyCtl rec) (hread : ReadRec E rec) : ∀ e : Rdt,
    ReadAt E e (visitor E c rec e).at_ ∧ ReadMembers E (visitor E c rec e).members
  | .prim p => ⟨prim_reads hg p, lastMembers_reads hS (prim_reads hg p)⟩
  | .ref x y => ⟨visitReference_reads hg hrec hread x y, lastMembers_reads hS (visitReference_reads hg hrec hread x y)⟩
  | .group e => ⟨group_reads (visitor_reads hg hS hrec hread e).1, lastMembers_reads hS (visitor_reads hg hS hrec hread e).1⟩
  | .optional e => ⟨visitOptional_reads hg hS (visitor_reads hg hS hrec hread e).1, lastMembers_reads hS (visitOptional_reads hg hS (visitor_reads hg hS hrec hread e).1)⟩
  | .array e => ⟨visitArray_reads hg hS (visitor_reads hg hS hrec hread e).1, lastMembers_reads hS (visitArray_reads hg hS (visitor_reads hg hS hrec hread e).1)⟩
  | .union l r => by
    have hm : ReadMembers E (visitor E c rec (.union l r)).members := by
      intro P s loc ms s' hw hc ht hr
      obtain ⟨m, s1, r1, r2⟩ := M.bind_ok.1 hr
      obtain ⟨_, s2, r3, r4⟩ := M.bind_ok.1 r2
      obtain ⟨ms', s3, r5, r6⟩ := M.bind_ok.1 r4
      obtain ⟨_, rfl⟩ := M.ret_ok.1 r6
      have h1 := part_reads hS (visitor_reads hg hS hrec hread l).1 hw hc ht r1 r3
      obtain ⟨hw2, _, g2, _⟩ := (part_run hS (visitor_run hS hrec l).1 (fun s lo lo' loc plain a h => (layout_lower h l).1 plain a)
        (fun s lo loc plain a h => layout_concrete l h) hw trivial hc).ok (x := m) (s' := s2) (by
          refine M.bind_ok.2 ⟨m, s1, r1, M.bind_ok.2 ⟨_, s2, r3, M.ret_ok.2 ⟨rfl, rfl⟩⟩⟩)
      exact h1.trans ((visitor_reads hg hS hrec hread r).2 P s2 loc _ _ hw2 (hc.mono g2) h1.tied r5) fun _ h => h.elim
    exact ⟨visitUnion_reads hg hS hm, hm⟩

/-! ## One type -/

theorem forEach_reads (hrec : RecSpec E anyCtl rec) (hread : ReadRec E rec) : ∀ (l : List Addr) {s s' : St}, W E P s → Calm P s → Tied E s → (∀ x ∈ l, IsBase s x) →
    M.forEach rec l s = (.ok (), s') → Solved E noX s s'
  | [], s, s', _, _, ht, _, hr => by
    obtain ⟨_, rfl⟩ := M.ret_ok.1 hr
    exact .refl ht
  | x :: l, s, s', hw, hc, ht, hl, hr => by
    obtain ⟨_, s1, r1, r2⟩ := M.bind_ok.1 hr
    obtain ⟨hw1, _, g1, _⟩ := (hrec P s x hw trivial hc (hl x (by simp))).ok r1
    have h1 := hread P s x s1 hw hc ht (hl x (by simp)) r1
    exact h1.trans (forEach_reads hrec hread l hw1 (hc.mono g1) h1.tied (fun y hy => g1.isBase (hl y (by simp [hy]))) r2) fun _ h => h.elim

/-- Giving the target the type of another base, at the end. -/
theorem likeOther_reads (hg : Good E c) (ht : Tied E s) (h : Solved E noX s s1) (hb : s.base a = some b) (hsh : b.shape = some (.unknown facets)) {i : Addr} {ib : Base}
    (hi : s1.base i = some ib) (hti : Typed ib)
    (hres : ∀ b1, ResolvedTo E (since s) s1 b b1 facets → Has E s1 b.location (D E True (since s) s1 b.location) True ib.type facets b1 ∧ b1.inherits = b.inherits ∧
      b1.typeLabel = b.typeLabel ∨ Has E s1 b.location (D E True (since s) s1 b.location) True ib.type facets b1 ∧ b1.inherits = b.inherits ∧ b.link = none)
    (hr : makeConcrete E c a ib.type facets s1 = (.ok (), s2)) :
    Solved E (· = a) s s2 ∧ Solved E (· = a) s1 s2 ∧ ∃ b' ib', s2.base a = some b' ∧ SameHead b b' ∧ MapsIn s2 (since s) b'.shape ∧ Typed b' ∧ b'.inherits = b.inherits ∧
      (b.link = none ∨ b'.typeLabel = b.typeLabel) ∧ s2.base i = some ib' ∧ Typed ib' ∧ Has E s2 b.location (D E True (since s) s2 b.location) True ib'.type facets b' := by
  have hk : Kind (emptyShape ib.type) ≠ "unknown" := by
    obtain ⟨sh, _, h1, h2⟩ := hti
    rw [← h1]; exact h2
  obtain ⟨b1, hb1, hh1, hst, hty, hor⟩ := again (t := ib.type) ht h hb hsh fun b1 hr1 => (hres b1 hr1).elim (·.1) (·.1)
  obtain ⟨sh, h1, h2, h3, h4, h5⟩ := remake hg h (lt_of_get hb) hb1 hk hst hty hr hh1.location
  obtain ⟨ib', m1, m2, m3⟩ := h2.later.types trivial _ _ hi hti
  refine ⟨h1, h2, _, ib', h3, hh1.trans ⟨rfl, rfl, rfl, rfl, rfl, rfl, rfl, rfl, rfl, rfl, rfl, rfl⟩, h4, h5.typed, ?_, ?_, m1, m2, by rw [m3]; exact h5⟩
  · rcases hor with rfl | hr1
    · rfl
    · exact (hres b1 hr1).elim (·.2.1) (·.2.1)
  · rcases hor with rfl | hr1
    · exact .inr rfl
    · rcases hres b1 hr1 with h | h
      · exact .inr h.2.2
      · exact .inl h.2.2

theorem resolveStep_reads (hg : Good E c) (hS : ∀ loc v, Load.Sub E anyCtl allPaths c loc v) (hrec : RecSpec E anyCtl rec) (hread : ReadRec E rec) :
    ReadRec E (resolveStep E c rec) := by
  intro P s a s' hw hc ht ha hr
  unfold resolveStep at hr
  obtain ⟨b, s0, r1, r2⟩ := M.bind_ok.1 hr
  obtain ⟨rfl, hb⟩ := getBase_ok r1
  cases hsh : b.shape with
  | none => rw [hsh] at r2; cases r2
  | some sh =>
    rw [hsh] at r2
    cases sh with
    | unknown facets =>
      simp only at r2
      have hu : Unk b := ⟨_, hsh⟩
      cases hlink : b.link with
      | some dt =>
        rw [hlink] at r2
        simp only [resolveLink] at r2
        cases hd : (s0.dts[dt]?).bind (·.shape) with
        | none => rw [hd] at r2; cases r2
        | some l =>
          rw [hd] at r2
          simp only at r2
          obtain ⟨d, hd1, hd2⟩ := Option.bind_eq_some_iff.1 hd
          have hl : IsBase s0 l := by
            obtain ⟨l', h1, h2⟩ := (hw.dt dt d hd1).shape
            rw [hd2] at h1; cases h1; exact h2
          obtain ⟨_, s1, r3, r4⟩ := M.bind_ok.1 r2
          obtain ⟨lb, s2, r5, r6⟩ := M.bind_ok.1 r4
          obtain ⟨rfl, hlb⟩ := getBase_ok r5
          obtain ⟨_, _, _, ⟨lb', hlb', htl⟩, _⟩ := (hrec P s0 l hw trivial hc hl).ok r3
          rw [hlb] at hlb'; cases hlb'
          have hsol := hread P s0 l s2 hw hc ht hl r3
          obtain ⟨d1, e1, e2, e3⟩ := hsol.later.dts _ _ hd1
          obtain ⟨k1, k2, b', lb', k3, k4, k5, k6, k7, k8, k9, k10, k11⟩ := likeOther_reads hg ht hsol hb hsh hlb htl (fun b1 hr1 => by
            unfold ResolvedTo at hr1
            simp only [hlink] at hr1
            obtain ⟨q1, q2, d', l', lb', q3, q4, q5, q6, q7⟩ := hr1
            rw [e1] at q3; cases q3
            rw [e3, hd2] at q4; cases q4
            rw [hlb] at q5; cases q5
            exact .inl ⟨q7, q1, q2⟩) r6
          obtain ⟨d2, f1, f2, f3⟩ := k2.later.dts _ _ e1
          refine k1.close hb ⟨hu, facets, b', hsh, k3, k4, k5, k6, ?_⟩
          unfold ResolvedTo
          simp only [hlink]
          exact ⟨k7, k8.resolve_left (by rw [hlink]; simp), d2, l, lb', f1, f3.trans (e3.trans hd2), k9, k10, k11⟩
      | none =>
        rw [hlink] at r2
        simp only at r2
        by_cases hcomp : b.type = "composite"
        · rw [if_pos hcomp] at r2
          unfold resolveMultipleInheritance at r2
          obtain ⟨b0, s1, r3, r4⟩ := M.bind_ok.1 r2
          obtain ⟨rfl, hb0⟩ := getBase_ok r3
          rw [hb] at hb0; cases hb0
          obtain ⟨_, s2, r5, r6⟩ := M.bind_ok.1 r4
          cases hh : (s1.slice b.inherits).head? with
          | none => rw [hh] at r6; cases r6
          | some i =>
            rw [hh] at r6
            simp only at r6
            obtain ⟨ib, s3, r7, r8⟩ := M.bind_ok.1 r6
            obtain ⟨rfl, hib⟩ := getBase_ok r7
            obtain ⟨_, _, _, hall, _⟩ := (forEach_run hrec (s1.slice b.inherits) hw trivial hc (slices_isBase hw)).ok r5
            obtain ⟨ib', hib', hti⟩ := hall i (List.mem_of_mem_head? hh)
            rw [hib] at hib'; cases hib'
            have hsol := forEach_reads hrec hread _ hw hc ht (slices_isBase hw) r5
            have hsl := hsol.later.sliceHead hh
            obtain ⟨k1, k2, b', ib', k3, k4, k5, k6, k7, k8, k9, k10, k11⟩ := likeOther_reads hg ht hsol hb hsh hib hti (fun b1 hr1 => by
              unfold ResolvedTo at hr1
              simp only [hlink] at hr1
              rw [if_pos hcomp] at hr1
              obtain ⟨q1, p, pb, q2, q3, q4, q5⟩ := hr1
              rw [hsl, hh] at q2; cases q2
              rw [hib] at q3; cases q3
              exact .inr ⟨q5, q1, hlink⟩) r8
            refine k1.close hb ⟨hu, facets, b', hsh, k3, k4, k5, k6, ?_⟩
            unfold ResolvedTo
            simp only [hlink]
            rw [if_pos hcomp]
            refine ⟨k7, i, ib', ?_, k9, k10, k11⟩
            rw [k1.later.sliceHead hh]; exact hh
        · rw [if_neg hcomp] at r2
          cases hp : parseTypeExpression b.type with
          | none => rw [hp] at r2; cases r2
          | some tree =>
            rw [hp] at r2
            simp only at r2
            obtain ⟨k1, b', k2, k3, k4, k5, k6⟩ := (visitor_reads hg hS hrec hread tree).1 P s0 a b facets s' hw hc ht hb hsh (fun n s' b' hr1 => by
              unfold ResolvedTo at hr1
              simp only [hlink] at hr1
              rw [if_neg hcomp] at hr1
              obtain ⟨tree', q1, q2⟩ := hr1
              rw [hp] at q1; cases q1
              exact q2) r2
            refine k1.close hb ⟨hu, facets, b', hsh, k2, k3, k4, k5, ?_⟩
            unfold ResolvedTo
            simp only [hlink]
            rw [if_neg hcomp]
            exact ⟨tree, hp, k6⟩
    | _ =>
      obtain ⟨_, rfl⟩ := M.ret_ok.1 r2
      exact .refl ht

end

/-- Resolving a type. -/
theorem resolveShape_reads (E : Env) : ∀ n, ReadRec E (resolveShape E n)
  | 0 => fun _ _ _ _ _ _ _ _ hr => by cases hr
  | n + 1 => resolveStep_reads (good E n) (fun _ _ => (specs (K := anyCtl) trivial (anyRegs E) n).sub fun _ _ _ _ _ => trivial)
      (resolveShape_run trivial (anyRegs E) n) (resolveShape_reads E n)

end GoRaml.Read
