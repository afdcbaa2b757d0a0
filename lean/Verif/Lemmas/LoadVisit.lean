import Verif.Lemmas.LoadResolve

/-!
# The visitor of type expressions and the resolution of a type
-/

namespace GoRaml.Load

open GoRaml GoRaml.Spec

/-- What the reference `b` at `z` in `s` has become in `s'`: what its type expression says. -/
def Laid (s : St) (b : Base) (s' : St) (z : Addr) : Prop :=
  ∀ facets tree, b.shape = some (.unknown facets) → b.link = none → b.type ≠ "composite" → parseTypeExpression b.type = some tree →
    (layout s' s.bases.length b.location tree).at_ (facets = none) z

/-- Every reference, except the bases in `X`, is as it was or has become what its type expression says. -/
def Res (X : Addr → Prop) (s s' : St) : Prop := ∀ z b, ¬ X z → s.base z = some b → Unk b → s'.base z = some b ∨ Laid s b s' z

theorem Res.same {X : Addr → Prop} {s s' : St} (h : ∀ z, ¬ X z → IsBase s z → s'.base z = s.base z) : Res X s s' :=
  fun z _ hx hb _ => .inl ((h z hx (base_isBase hb)).trans hb)

theorem Res.refl (X : Addr → Prop) (s : St) : Res X s s := Res.same fun _ _ _ => rfl

theorem Res.weaken {X Y : Addr → Prop} {s s' : St} (h : Res X s s') (hxy : ∀ z, X z → Y z) : Res Y s s' := fun z b hz => h z b fun hx => hz (hxy z hx)

theorem Res.trans {X : Addr → Prop} {s t u : St} (h : Res X s t) (k : Res X t u) (hlen : s.bases.length ≤ t.bases.length)
    (hk : ∀ z, ¬ X z → Keep s.bases.length z t u) : Res X s u := by
  intro z b hz hb hu
  rcases h z b hz hb hu with h1 | h1
  · rcases k z b hz h1 hu with k1 | k1
    · exact .inl k1
    · exact .inr fun facets tree e1 e2 e3 e4 => (layout_lower hlen tree).1 _ _ (k1 facets tree e1 e2 e3 e4)
  · exact .inr fun facets tree e1 e2 e3 e4 => (layout_mono tree (hk z hz)).1 _ (h1 facets tree e1 e2 e3 e4)

/-- No bases. -/
abbrev noBase : Addr → Prop := fun _ => False

theorem Res.then {T : String → Prop} {X : Addr → Prop} {s t u : St} (h : Res X s t) (k : Res X t u) (hlen : s.bases.length ≤ t.bases.length) (g : G True (only T) t u) : Res X s u :=
  h.trans k hlen fun _ _ => Keep.of _ g

theorem Res.thenB {T : String → Prop} {a : Addr} {s t u : St} (h : Res (· = a) s t) (k : Res (· = a) t u) (hlen : s.bases.length ≤ t.bases.length) (ha : IsBase s a)
    (g : G True ((only T).addB a) t u) : Res (· = a) s u :=
  h.trans k hlen fun _ hz => Keep.except g ha hz

theorem Res.full {a : Addr} {s s' : St} {b : Base} (h : Res (· = a) s s') (hb : s.base a = some b) (hl : Laid s b s' a) : Res noBase s s' := by
  intro z bz _ hbz hu
  by_cases hz : z = a
  · subst hz
    rw [hb] at hbz; cases hbz
    exact .inr hl
  · exact h z bz hz hbz hu

/-- The contract of the recursive calls of `resolveShape`. -/
def RecSpec (E : Env) (K : Ctl) (rec : Addr → M St Unit) : Prop :=
  ∀ P s a, W E P s → K.X s → Calm P s → IsBase s a → Run E K True P (only allPaths) (rec a) s (fun _ s' => Concrete s' a ∧ Res noBase s s')

/-- The contract of a visitor for the target `a`, which is a reference. -/
def AtSpec (E : Env) (K : Ctl) (lay : St → Addr → String → Layout) (at_ : Addr → Option (List YNode) → M St Unit) : Prop :=
  ∀ P s a b facets, W E P s → K.X s → Calm P s → s.base a = some b → Unk b →
    Run E K True P (only allPaths) (at_ a facets) s (fun _ s' => (lay s' s.bases.length b.location).at_ (facets = none) a ∧ Res (· = a) s s')

/-- The contract of a visitor for the members of a union. -/
def MembersSpec (E : Env) (K : Ctl) (lay : St → Addr → String → Layout) (members : String → M St (List Addr)) : Prop :=
  ∀ P s loc, W E P s → K.X s → Calm P s →
    Run E K True P (only allPaths) (members loc) s (fun ms s' => (∀ m ∈ ms, IsBase s' m) ∧ (lay s' s.bases.length loc).members ms ∧ Res noBase s s')

section
variable {E : Env} {K : Ctl} {c : Calls} {rec : Addr → M St Unit} {P : Perm} {s : St} {a : Addr}

theorem typed_of {b : Base} {sh : Shape} {t : String} {facets : Option (List YNode)} (h : MadeShape t facets sh) (hn : Kind (emptyShape t) ≠ "unknown") :
    Typed { b with type := t, shape := some sh } := ⟨sh, rfl, h.kind, by rw [h.kind]; exact hn⟩

/-- Giving the target a concrete shape. -/
theorem concrete_run (hS : ∀ loc v, Sub E K allPaths c loc v) {b : Base} {t : String} {facets : Option (List YNode)} (hw : W E P s) (hx : K.X s) (hb : s.base a = some b)
    (hn : Kind (emptyShape t) ≠ "unknown") :
    Run E K True P ((only allPaths).addB a) (makeConcrete E c a t facets) s
      (fun _ s' => (∃ sh, s'.base a = some { b with type := t, shape := some sh } ∧ MadeShape t facets sh) ∧ Res (· = a) s s') :=
  ((makeConcrete_run (fun _ _ _ _ => hS _ _) hw hx hb (.inr hn)).post fun _ _ _ g h => And.intro h
    (Res.same fun z hz hi => (g.base z hi fun hp => hp.elim id hz).resolve_right fun h => h.1)).resolving

/-- A new anonymous base. -/
theorem makeNewShape_run (hS : ∀ loc v, Sub E K allPaths c loc v) {name t loc : String} (hw : W E P s) (hx : K.X s) :
    Run E K True (P.addB s.bases.length) (only allPaths) (makeNewShape E c name t loc) s
      (fun m s' => (m = s.bases.length ∧ ∃ b, s'.base m = some b ∧ b.location = loc ∧ b.type = t ∧ b.shape = some (emptyShape t)) ∧ Res noBase s s') := by
  have h : Run E K False (P.addB s.bases.length) (only allPaths) (makeNewShape E c name t loc) s
      (fun m s' => m = s.bases.length ∧ ∃ b, s'.base m = some b ∧ b.location = loc ∧ b.type = t ∧ b.shape = some (emptyShape t)) := by
    unfold makeNewShape
    refine Run.bind' (π2 := (only allPaths).addB s.bases.length) (Run.makeBaseShape (π := only allPaths) hw hx) (Perm.Le.refl _ _) (Perm.Le.addB (Nat.le_refl _))
      fun m s1 hw1 hx1 _ ⟨e, h1⟩ => ?_
    subst e
    refine Run.bind (makeConcrete_run (fun _ _ _ _ => hS _ _) hw1 hx1 h1 (.inl addB_self)) fun _ s2 hw2 hx2 _ ⟨sh, h2, hm⟩ => ?_
    exact Run.ret hw2 hx2 ⟨rfl, _, h2, rfl, rfl, by rw [hm.plain rfl]⟩
  exact (h.post fun _ _ _ g h => And.intro h (Res.same fun z _ hi => (g.base z hi id).resolve_right fun h => h.1)).resolving

theorem unk_empty : emptyShape "" = .unknown none := by simp [emptyShape]

/-- A new anonymous base for a part of the expression, visited. -/
theorem part_run (hS : ∀ loc v, Sub E K allPaths c loc v) {lay : St → Addr → String → Layout} {at_ : Addr → Option (List YNode) → M St Unit} (hat : AtSpec E K lay at_)
    (hlow : ∀ s lo lo' loc plain a, lo' ≤ lo → (lay s lo loc).at_ plain a → (lay s lo' loc).at_ plain a)
    (hconc : ∀ s lo loc plain a, (lay s lo loc).at_ plain a → Concrete s a)
    {loc : String} (hw : W E P s) (hx : K.X s) (hc : Calm P s) :
    Run E K True P (only allPaths) (M.bind (makeNewShape E c "" "" loc) fun m => M.bind (at_ m none) fun _ => M.ret m) s
      (fun m s' => s.bases.length ≤ m ∧ IsBase s' m ∧ (lay s' s.bases.length loc).at_ True m ∧ Res noBase s s') := by
  refine Run.bind (makeNewShape_run hS hw hx) fun m s1 hw1 hx1 g1 ⟨⟨e, b, hb, hloc, _, hsh⟩, r1⟩ => ?_
  have hu : Unk b := ⟨none, by rw [hsh, unk_empty]⟩
  have hc1 : Calm (P.addB m) s1 := (hc.mono g1).add hb (.inl hu)
  have hle : s.bases.length ≤ m := Nat.le_of_eq e.symm
  rw [← e] at hw1
  refine Run.bind (hat _ s1 m b none hw1 hx1 hc1 hb hu) fun _ s2 hw2 hx2 g2 ⟨h2, r2⟩ => ?_
  have hcon := hconc _ _ _ _ _ h2
  refine Run.ret (hw2.dropB fun b' hb' => ?_) hx2 ⟨hle, concrete_isBase hcon, ?_, ?_⟩
  · obtain ⟨b2, hb2, ht2⟩ := hcon
    rw [hb2] at hb'; cases hb'; exact .inr ht2
  · rw [hloc] at h2
    have := hlow _ _ s.bases.length _ _ _ g1.bases h2
    simpa using this
  · intro z bz _ hbz huz
    have hza : z ≠ m := fun h => absurd (base_isBase hbz) (by subst h; exact Nat.not_lt.2 hle)
    exact (Res.then (X := (· = m)) (r1.weaken fun _ h => h.elim) r2 g1.bases g2) z bz hza hbz huz

/-- Visiting a part and going on. -/
theorem part_bind {β : Type} (hS : ∀ loc v, Sub E K allPaths c loc v) {lay : St → Addr → String → Layout} {at_ : Addr → Option (List YNode) → M St Unit} (hat : AtSpec E K lay at_)
    (hlow : ∀ s lo lo' loc plain a, lo' ≤ lo → (lay s lo loc).at_ plain a → (lay s lo' loc).at_ plain a)
    (hconc : ∀ s lo loc plain a, (lay s lo loc).at_ plain a → Concrete s a) {π : Perm} {P' : Perm} {R : β → St → Prop} {f : Addr → M St β}
    {loc : String} (hw : W E P s) (hx : K.X s) (hc : Calm P s) (hle : Perm.Le s (only allPaths) π)
    (k : ∀ m s', W E P s' → K.X s' → G True (only allPaths) s s' → s.bases.length ≤ m → IsBase s' m → (lay s' s.bases.length loc).at_ True m → Res noBase s s' → Run E K True P' π (f m) s' R) :
    Run E K True P' π (M.bind (makeNewShape E c "" "" loc) fun m => M.bind (at_ m none) fun _ => f m) s R := by
  have e : (M.bind (makeNewShape E c "" "" loc) fun m => M.bind (at_ m none) fun _ => f m) =
      M.bind (M.bind (makeNewShape E c "" "" loc) fun m => M.bind (at_ m none) fun _ => M.ret m) f := by
    rw [M.bind_assoc]
    congr 1
    funext m
    rw [M.bind_assoc]
    rfl
  rw [e]
  exact Run.bind' (part_run hS hat hlow hconc hw hx hc) hle (Perm.Le.refl _ _) fun m s' hw' hx' g ⟨h1, h2, h3, h4⟩ => k m s' hw' hx' g h1 h2 h3 h4

/-- Changing the target, which is typed. -/
theorem target_run {f : Base → Base} {b : Base} (hw : W E P s) (hx : K.X s) (hb : s.base a = some b) (hin : BaseIn s b → BaseIn s (f b)) (hid : (f b).id = b.id) (ht : Typed (f b))
    (hloc : ∀ b, (f b).location = b.location := by intro _; rfl) :
    Run E K True P ((only allPaths).addB a) (Heap.updBase a f) s (fun _ s' => (s'.base a = some (f b) ∧ s'.slices = s.slices) ∧ Res (· = a) s s') := by
  have h : Run E K True P ((only allPaths).addB a) (Heap.updBase a f) s (fun _ s' => s' = { s with bases := s.bases.modify a f }) :=
    Run.updBase hw hx addB_self (fun b' hb' => by
      rw [hb] at hb'; cases hb'
      exact ⟨hin (hw.base a b hb), hid, .inr (.inr ht)⟩) fun b _ => hloc b
  refine h.post fun _ s' _ _ e => ?_
  subst e
  exact ⟨⟨by rw [base_upd, if_pos rfl, hb]; rfl, rfl⟩, Res.same fun z hz _ => by rw [base_upd, if_neg hz]⟩

theorem slices_isBase (hw : W E P s) {p : Option Nat} : ∀ x ∈ s.slice p, IsBase s x := by
  intro x hx
  cases p with
  | none => cases hx
  | some i =>
    have hx : x ∈ (s.slices[i]?).getD [] := hx
    cases hi : s.slices[i]? with
    | none => rw [hi] at hx; cases hx
    | some l => rw [hi] at hx; exact hw.slices l (List.mem_of_getElem? hi) x hx

theorem not_concrete {b : Base} (hb : s.base a = some b) (hu : Unk b) : ¬ Concrete s a := by
  rintro ⟨b', hb', ht⟩
  rw [hb] at hb'; cases hb'
  exact hu.not_typed ht

theorem kept_of_concrete {s' : St} (g : G True (only allPaths) s s') {b : Base} (hb : s.base a = some b) (ht : Typed b) : s'.base a = some b := by
  rcases g.base a (base_isBase hb) id with h | ⟨_, h, _⟩
  · exact h.trans hb
  · exact absurd ⟨b, hb, ht⟩ h

theorem visitReference_run (hS : ∀ loc v, Sub E K allPaths c loc v) (hrec : RecSpec E K rec) (x : String) (y : Option String) :
    AtSpec E K (fun s lo loc => layout s lo loc (.ref x y)) (visitReference E c rec (refText x y)) := by
  intro P s a b facets hw hx hc hb hu
  refine Run.finish (a := a) ?_ (not_concrete hb hu) fun _ s' h => layout_concrete (.ref x y) h.1
  unfold visitReference
  refine Run.bind (Run.getBase hw hx) fun b0 s0 hw0 hx0 _ ⟨e, h0⟩ => ?_
  subst e
  rw [hb] at h0; cases h0
  refine Run.of_eq (m' := M.bind (M.lift (getReferenced s0 Lib.types (refText x y) b.location)) _) rfl ?_
  by_cases hdiv : getReferenced s0 Lib.types (refText x y) b.location = .diverge
  · exfalso
    revert hdiv
    unfold getReferenced
    split
    · intro h; cases h
    · split
      · intro h; cases h
      · unfold Lib.getReference lookupUsed
        simp only
        repeat' split
        all_goals intro h; cases h
    · split
      · intro h; cases h
      · unfold DT.getReference lookupUsed
        simp only
        repeat' split
        all_goals intro h; cases h
    · intro h; cases h
  refine Run.bind (Q := fun r s' => s' = s0 ∧ getReferenced s0 Lib.types (refText x y) b.location = .ok r) (Run.lift hw0 hx0 hdiv fun r hr => ⟨rfl, hr⟩) fun ref s1 hw1 hx1 _ ⟨e, href⟩ => ?_
  subst e
  have hib : IsBase s1 ref := getReferenced_isBase hw1 (fun l hl => hl.types) href
  refine Run.bind (Run.getBase hw1 hx1) fun rb s2 hw2 hx2 _ ⟨e, _⟩ => ?_
  subst e
  split
  · exact Run.err hw2 hx2
  refine Run.bind' (hrec P s2 ref hw2 hx2 hc hib) only_addB (Perm.Le.refl _ _) fun _ s3 hw3 hx3 g3 ⟨hcon, r3⟩ => ?_
  refine Run.bind (Run.getBase hw3 hx3) fun rb' s4 hw4 hx4 _ ⟨e, hrb⟩ => ?_
  subst e
  obtain ⟨rb2, hrb2, htr⟩ := hcon
  rw [hrb2] at hrb; cases hrb
  obtain ⟨shr, hsr, hkr, hnr⟩ := htr
  rw [hkr] at hnr
  obtain ⟨b1, hb1⟩ := isBase_base (g3.isBase (base_isBase hb))
  have ha : IsBase s2 a := base_isBase hb
  refine Run.bind (concrete_run hS hw4 hx4 hb1 hnr) fun _ s5 hw5 hx5 g5 ⟨⟨sh, h5, hm⟩, r5⟩ => ?_
  have ht5 := typed_of (b := b1) hm hnr
  refine Run.bind (target_run hw5 hx5 h5 (fun h => ⟨h.shape, h.facets, h.facetDefs, h.alias, h.inherits, h.link⟩) rfl ⟨sh, rfl, hm.kind, by rw [hm.kind]; exact hnr⟩)
    fun _ s6 hw6 hx6 g6 ⟨⟨h6, _⟩, r6⟩ => ?_
  have r26 : Res (· = a) s2 s6 := ((r3.weaken fun _ h => h.elim).thenB r5 g3.bases ha g5).thenB r6 (Nat.le_trans g3.bases g5.bases) ha g6
  have g36 : G True ((only allPaths).addB a) s2 s6 := ((g3.le only_addB).trans g5).trans g6
  have hib6 : IsBase s6 ref := g36.isBase hib
  cases facets with
  | none =>
    refine (target_run hw6 hx6 h6 (fun h => ⟨h.shape, h.facets, h.facetDefs, ifSome_some hib6, h.inherits, h.link⟩) rfl ⟨sh, rfl, hm.kind, by rw [hm.kind]; exact hnr⟩).post
      fun _ s7 _ g7 ⟨⟨h7, _⟩, r7⟩ => ?_
    refine ⟨?_, r26.thenB r7 g36.bases ha g7⟩
    exact ⟨_, ref, h7, ⟨sh, rfl, hm.kind, by rw [hm.kind]; exact hnr⟩, getReferenced_mono (g36.trans g7) (fun _ h => h) (fun _ h => h) href, fun _ => rfl, fun h => absurd rfl h⟩
  | some l =>
    simp only
    refine Run.of_eq (m' := M.bind (Heap.newSlice (s6.slice b1.inherits ++ [ref])) fun i => Heap.updBase a fun b => { b with inherits := some i }) (by simp [appendInherits, h6]) ?_
    refine Run.bind (Run.newSlice hw6 hx6 ?_) fun i s7 hw7 hx7 g7 ⟨hi, hsl, hbs⟩ => ?_
    · intro x hxm
      rcases List.mem_append.1 hxm with h | h
      · exact slices_isBase hw6 x h
      · simp only [List.mem_singleton] at h; subst h; exact hib6
    · have h7 : s7.base a = s6.base a := by simp only [St.base, hbs]
      rw [h6] at h7
      refine (target_run (f := fun b => { b with inherits := some i }) hw7 hx7 h7 (fun h => ⟨h.shape, h.facets, h.facetDefs, h.alias, ifSome_some (P := (· < s7.slices.length)) hi, h.link⟩) rfl ⟨sh, rfl, hm.kind, by rw [hm.kind]; exact hnr⟩).post
        fun _ s8 _ g8 ⟨⟨h8, hs8⟩, r8⟩ => ?_
      have r7 : Res (· = a) s6 s7 := Res.same fun z _ _ => by simp only [St.base, hbs]
      refine And.intro ?_ ((r26.thenB r7 g36.bases ha g7).thenB r8 (g36.trans g7).bases ha g8)
      refine ⟨_, ref, h8, ⟨sh, rfl, hm.kind, by rw [hm.kind]; exact hnr⟩, getReferenced_mono ((g36.trans g7).trans g8) (fun _ h => h) (fun _ h => h) href, (fun h => by cases h), fun _ => ?_⟩
      show ref ∈ s8.slice (some i)
      have : s8.slice (some i) = s7.slice (some i) := by simp only [St.slice, hs8]
      rw [this, hsl]; simp

theorem prim_run (hS : ∀ loc v, Sub E K allPaths c loc v) (p : Prim) : AtSpec E K (fun s lo loc => layout s lo loc (.prim p)) (fun a _ => makeConcrete E c a p.text none) := by
  intro P s a b facets hw hx hc hb hu
  refine Run.finish (a := a) ?_ (not_concrete hb hu) fun _ s' h => layout_concrete (.prim p) h.1
  have hn : Kind (emptyShape p.text) ≠ "unknown" := by cases p <;> decide +kernel
  refine (concrete_run hS hw hx hb hn).post fun _ s' _ _ ⟨⟨sh, h1, hm⟩, r1⟩ => ?_
  exact ⟨⟨_, h1, typed_of hm hn, rfl, by rw [hm.plain rfl]⟩, r1⟩

/-- Storing the members of a union. -/
theorem setAnyOf_run {b : Base} {ss : List Addr} (hw : W E P s) (hx : K.X s) (hb : s.base a = some { b with type := "union", shape := some (.union none none) })
    (hss : ∀ m ∈ ss, IsBase s m) :
    Run E K True P ((only allPaths).addB a) (setAnyOf a ss) s
      (fun _ s' => (∃ b' i, s'.base a = some b' ∧ Typed b' ∧ b'.shape = some (.union (some i) none) ∧ s'.slice (some i) = ss) ∧ Res (· = a) s s') := by
  unfold setAnyOf
  refine Run.bind (Run.newSlice hw hx hss) fun i s1 hw1 hx1 g1 ⟨hi, hsl, hbs⟩ => ?_
  have h1 : s1.base a = s.base a := by simp only [St.base, hbs]
  rw [hb] at h1
  have ht : Typed { b with type := "union", shape := some (.union (some i) none) } := ⟨_, rfl, rfl, by simp [Kind]⟩
  have r1 : Res (· = a) s s1 := Res.same fun z _ _ => by simp only [St.base, hbs]
  refine (target_run (f := fun b => { b with shape := some (.union (some i) none) }) hw1 hx1 h1 (fun h => ⟨ifSome_some (P := ShapeIn s1) (ifSome_some (P := (· < s1.slices.length)) hi), h.facets, h.facetDefs, h.alias, h.inherits, h.link⟩) rfl ht).post fun _ s2 _ g2 ⟨⟨h2, hs2⟩, r2⟩ => ?_
  exact ⟨⟨_, i, h2, ht, rfl, by rw [← hsl]; simp only [St.slice, hs2]⟩, r1.thenB r2 g1.bases (base_isBase hb) g2⟩

theorem kind_union_ne : Kind (emptyShape "union") ≠ "unknown" := by decide +kernel

theorem union_typed {b : Base} : Typed { b with type := "union", shape := some (.union none none) } := ⟨_, rfl, rfl, by simp [Kind]⟩

theorem visitUnion_run (hS : ∀ loc v, Sub E K allPaths c loc v) {l r : Rdt} {members : String → M St (List Addr)}
    (hm : MembersSpec E K (fun s lo loc => layout s lo loc (.union l r)) members) :
    AtSpec E K (fun s lo loc => layout s lo loc (.union l r)) (visitUnion E c members) := by
  intro P s a b facets hw hx hc hb hu
  refine Run.finish (a := a) ?_ (not_concrete hb hu) fun _ s' h => layout_concrete (.union l r) h.1
  unfold visitUnion
  refine Run.bind (Run.getBase hw hx) fun b0 s0 hw0 hx0 _ ⟨e, h0⟩ => ?_
  subst e
  rw [hb] at h0; cases h0
  refine Run.bind (concrete_run hS hw0 hx0 hb kind_union_ne) fun _ s1 hw1 hx1 g1 ⟨⟨sh, h1, hsh⟩, r1⟩ => ?_
  have e1 : sh = .union none none := hsh.union (by decide +kernel)
  subst e1
  have hc1 : Calm P s1 := hc.step g1 fun _ => ⟨_, h1, .inr union_typed⟩
  refine Run.bind' (hm P s1 b.location hw1 hx1 hc1) only_addB (Perm.Le.refl _ _) fun ss s2 hw2 hx2 g2 ⟨hss, hlay, r2⟩ => ?_
  have h2 := kept_of_concrete g2 h1 union_typed
  refine (setAnyOf_run hw2 hx2 h2 hss).post fun _ s3 _ g3 ⟨⟨b', i, h3, ht, hsh3, hsl⟩, r3⟩ => ?_
  refine ⟨⟨b', i, h3, ht, hsh3, ?_⟩, (r1.then (r2.weaken fun _ h => h.elim) g1.bases g2).thenB r3 (Nat.le_trans g1.bases g2.bases) (base_isBase hb) g3⟩
  rw [hsl]
  have hlow := (layout_lower (s := s2) g1.bases (loc := b.location) (.union l r)).2 ss hlay
  have hlt : a < s0.bases.length := base_isBase hb
  exact (layout_mono (.union l r) (a := s0.bases.length) (Keep.except g3 hlt (Nat.ne_of_gt hlt))).2 ss hlow

theorem lastMembers_run (hS : ∀ loc v, Sub E K allPaths c loc v) {e : Rdt} {at_ : Addr → Option (List YNode) → M St Unit} (hat : AtSpec E K (fun s lo loc => layout s lo loc e) at_)
    (hl : ∀ s lo loc, (layout s lo loc e).members = fun ms => ∃ m, ms = [m] ∧ lo ≤ m ∧ (layout s lo loc e).at_ True m) :
    MembersSpec E K (fun s lo loc => layout s lo loc e) (Visitor.last E c at_).members := by
  intro P s loc hw hx hc
  refine part_bind hS hat (fun s lo lo' loc plain a h => (layout_lower h e).1 plain a) (fun s lo loc plain a h => layout_concrete e h) hw hx hc (Perm.Le.refl _ _)
    fun m s' hw' hx' _ h1 h2 h3 r => Run.ret hw' hx' ⟨?_, ?_, r⟩
  · intro m' hm'; simp only [List.mem_singleton] at hm'; subst hm'; exact h2
  · rw [hl]; exact ⟨m, rfl, h1, h3⟩

theorem visitOptional_run (hS : ∀ loc v, Sub E K allPaths c loc v) {e : Rdt} {v : Visitor} (hat : AtSpec E K (fun s lo loc => layout s lo loc e) v.at_) :
    AtSpec E K (fun s lo loc => layout s lo loc (.optional e)) (visitOptional E c v) := by
  intro P s a b facets hw hx hc hb hu
  refine Run.finish (a := a) ?_ (not_concrete hb hu) fun _ s' h => layout_concrete (.optional e) h.1
  unfold visitOptional
  refine Run.bind (Run.getBase hw hx) fun b0 s0 hw0 hx0 _ ⟨e, h0⟩ => ?_
  subst e
  rw [hb] at h0; cases h0
  refine Run.bind (concrete_run hS hw0 hx0 hb kind_union_ne) fun _ s1 hw1 hx1 g1 ⟨⟨sh, h1, hsh⟩, r1⟩ => ?_
  have e1 : sh = .union none none := hsh.union (by decide +kernel)
  subst e1
  have hc1 : Calm P s1 := hc.step g1 fun _ => ⟨_, h1, .inr union_typed⟩
  refine part_bind hS hat (fun s lo lo' loc plain a h => (layout_lower h e).1 plain a) (fun s lo loc plain a h => layout_concrete e h) hw1 hx1 hc1 only_addB
    fun m s2 hw2 hx2 g2 hm1 hm2 hm3 r2 => ?_
  refine Run.bind' (P := P) (Q := fun n s' => (s2.bases.length ≤ n ∧ ∃ bn, s'.base n = some bn ∧ Typed bn ∧ bn.shape = some .nil) ∧ Res noBase s2 s')
    ((makeNewShape_run hS hw2 hx2 (name := "") (t := "nil") (loc := b.location)).mono (Perm.Le.refl _ _) ?_) only_addB (Perm.Le.refl _ _) fun n s3 hw3 hx3 g3 ⟨⟨hn, bn, hbn, htn, hsn⟩, r3⟩ => ?_
  · intro n s' hw' _ ⟨⟨e, bn, hbn, _, ht, hs⟩, r3⟩
    have hty : Typed bn := ⟨_, hs, by rw [ht], by decide +kernel⟩
    refine ⟨hw'.dropB fun b' hb' => ?_, ⟨Nat.le_of_eq e.symm, bn, hbn, hty, by rw [hs]; simp [emptyShape]⟩, r3⟩
    rw [← e, hbn] at hb'; cases hb'; exact .inr hty
  · have h3 := kept_of_concrete (g2.trans g3) h1 union_typed
    refine (setAnyOf_run hw3 hx3 h3 ?_).post fun _ s4 _ g4 ⟨⟨b', i, h4, ht, hsh4, hsl⟩, r4⟩ => ?_
    · intro x hxm
      simp only [List.mem_cons, List.not_mem_nil, or_false] at hxm
      rcases hxm with rfl | rfl
      · exact g3.isBase hm2
      · exact base_isBase hbn
    · have hlt : a < s0.bases.length := base_isBase hb
      have hm0 : s0.bases.length ≤ m := Nat.le_trans g1.bases hm1
      have hn0 : s0.bases.length ≤ n := Nat.le_trans g1.bases (Nat.le_trans g2.bases hn)
      have k : Keep s0.bases.length m s2 s4 := by
        have k1 : Keep s0.bases.length m s2 s3 := Keep.of _ g3
        have k2 : Keep s0.bases.length m s3 s4 := Keep.except g4 hlt (by intro e; subst e; exact absurd hm0 (Nat.not_le.2 hlt))
        exact ⟨fun x hx hc => by
          have hx1 := k1.base x hx hc
          obtain ⟨bx, hbx, htx⟩ := hc
          rw [k2.base x hx ⟨bx, hx1.trans hbx, htx⟩, hx1], k1.slices.trans k2.slices, fun t loc r h => k2.refs t loc r (k1.refs t loc r h)⟩
      have hna : n ≠ a := by intro e; subst e; exact absurd hn0 (Nat.not_le.2 hlt)
      have k3 : Keep s0.bases.length n s3 s4 := Keep.except g4 hlt hna
      exact ⟨⟨b', i, m, n, bn, h4, ht, hsh4, hsl, hm0, (layout_mono e k).1 True ((layout_lower g1.bases e).1 _ _ hm3), hn0,
        (k3.base n (.inl rfl) ⟨bn, hbn, htn⟩).trans hbn, htn, hsn⟩,
        ((r1.then (r2.weaken fun _ h => h.elim) g1.bases g2).then (r3.weaken fun _ h => h.elim) (Nat.le_trans g1.bases g2.bases) g3).thenB r4
          (Nat.le_trans g1.bases (Nat.le_trans g2.bases g3.bases)) hlt g4⟩

theorem visitArray_run (hS : ∀ loc v, Sub E K allPaths c loc v) {e : Rdt} {v : Visitor} (hat : AtSpec E K (fun s lo loc => layout s lo loc e) v.at_) :
    AtSpec E K (fun s lo loc => layout s lo loc (.array e)) (visitArray E c v) := by
  intro P s a b facets hw hx hc hb hu
  refine Run.finish (a := a) ?_ (not_concrete hb hu) fun _ s' h => layout_concrete (.array e) h.1
  unfold visitArray
  refine Run.bind (Run.getBase hw hx) fun b0 s0 hw0 hx0 _ ⟨e, h0⟩ => ?_
  subst e
  rw [hb] at h0; cases h0
  have hka : Kind (emptyShape "array") ≠ "unknown" := by decide +kernel
  refine Run.bind (concrete_run hS hw0 hx0 hb hka) fun _ s1 hw1 hx1 g1 ⟨⟨sh, h1, hsh⟩, r1⟩ => ?_
  obtain ⟨f, hf⟩ := kind_array (sh := sh) (hsh.kind.trans (by decide +kernel))
  have ht1 := typed_of (b := b) hsh hka
  subst hf
  have hc1 : Calm P s1 := hc.step g1 fun _ => ⟨_, h1, .inr ht1⟩
  refine part_bind hS hat (fun s lo lo' loc plain a h => (layout_lower h e).1 plain a) (fun s lo loc plain a h => layout_concrete e h) hw1 hx1 hc1 only_addB
    fun m s2 hw2 hx2 g2 hm1 hm2 hm3 r2 => ?_
  have h2 := kept_of_concrete g2 h1 ht1
  have harr : arrayAt s2 a = f := by simp [arrayAt, St.shapeAt, h2]
  refine Run.of_eq (m' := setArray a { arrayAt s2 a with items := some m }) rfl ?_
  rw [harr]
  unfold setArray
  have ht2 : Typed { b with type := "array", shape := some (.array { f with items := some m }) } := ⟨_, rfl, by simp only [Kind]; decide +kernel, by simp [Kind]⟩
  refine (target_run hw2 hx2 h2 (fun h => ⟨ifSome_some (P := ShapeIn s2) (x := .array { f with items := some m }) (ifSome_some (P := IsBase s2) hm2), h.facets, h.facetDefs, h.alias, h.inherits, h.link⟩) rfl ht2 fun b => by split <;> rfl).post fun _ s3 _ g3 ⟨⟨h3, _⟩, r3⟩ => ?_
  have hlt : a < s0.bases.length := base_isBase hb
  have hm0 : s0.bases.length ≤ m := Nat.le_trans g1.bases hm1
  have k : Keep s0.bases.length m s2 s3 := Keep.except g3 hlt (by intro e; subst e; exact absurd hm0 (Nat.not_le.2 hlt))
  refine ⟨⟨_, _, m, h3, ht2, rfl, rfl, fun hp => ?_, hm0, (layout_mono e k).1 True ((layout_lower g1.bases e).1 _ _ hm3)⟩,
    (r1.then (r2.weaken fun _ h => h.elim) g1.bases g2).thenB r3 (Nat.le_trans g1.bases g2.bases) hlt g3⟩
  have he : Shape.array f = emptyShape "array" := hsh.plain hp
  have he2 : emptyShape "array" = .array {} := by simp [emptyShape]
  rw [he2] at he
  cases he; rfl

theorem visitor_run (hS : ∀ loc v, Sub E K allPaths c loc v) (hrec : RecSpec E K rec) : ∀ e : Rdt,
    AtSpec E K (fun s lo loc => layout s lo loc e) (visitor E c rec e).at_ ∧ MembersSpec E K (fun s lo loc => layout s lo loc e) (visitor E c rec e).members
  | .prim p => ⟨prim_run hS p, lastMembers_run hS (prim_run hS p) fun _ _ _ => rfl⟩
  | .ref x y => ⟨visitReference_run hS hrec x y, lastMembers_run hS (visitReference_run hS hrec x y) fun _ _ _ => rfl⟩
  | .group e => ⟨(visitor_run hS hrec e).1, lastMembers_run hS (e := .group e) (visitor_run hS hrec e).1 fun _ _ _ => rfl⟩
  | .optional e => ⟨visitOptional_run hS (visitor_run hS hrec e).1, lastMembers_run hS (visitOptional_run hS (visitor_run hS hrec e).1) fun _ _ _ => rfl⟩
  | .array e => ⟨visitArray_run hS (visitor_run hS hrec e).1, lastMembers_run hS (visitArray_run hS (visitor_run hS hrec e).1) fun _ _ _ => rfl⟩
  | .union l r => by
    have hm : MembersSpec E K (fun s lo loc => layout s lo loc (.union l r)) (visitor E c rec (.union l r)).members := by
      intro P s loc hw hx hc
      refine part_bind hS (visitor_run hS hrec l).1 (fun s lo lo' loc plain a h => (layout_lower h l).1 plain a) (fun s lo loc plain a h => layout_concrete l h) hw hx hc (Perm.Le.refl _ _)
        fun m s1 hw1 hx1 g1 h1 h2 h3 r1 => ?_
      refine Run.bind ((visitor_run hS hrec r).2 P s1 loc hw1 hx1 (hc.mono g1)) fun ms s2 hw2 hx2 g2 ⟨h4, h5, r2⟩ => Run.ret hw2 hx2 ⟨?_, ?_, r1.then r2 g1.bases g2⟩
      · intro x hxm
        rcases List.mem_cons.1 hxm with rfl | h
        · exact g2.isBase h2
        · exact h4 x h
      · exact ⟨m, ms, rfl, h1, (layout_mono l (Keep.of _ g2)).1 True h3, (layout_lower g1.bases r).2 ms h5⟩
    exact ⟨visitUnion_run hS hm, hm⟩

/-! ## One type -/

theorem forEach_run (hrec : RecSpec E K rec) : ∀ (l : List Addr) {s : St}, W E P s → K.X s → Calm P s → (∀ x ∈ l, IsBase s x) →
    Run E K True P (only allPaths) (M.forEach rec l) s (fun _ s' => (∀ x ∈ l, Concrete s' x) ∧ Res noBase s s')
  | [], s, hw, hx, _, _ => Run.ret hw hx ⟨by simp, Res.refl _ _⟩
  | x :: l, s, hw, hx, hc, hl => by
    refine Run.bind (hrec P s x hw hx hc (hl x (by simp))) fun _ s1 hw1 hx1 g1 ⟨h1, r1⟩ => ?_
    refine (forEach_run hrec l hw1 hx1 (hc.mono g1) fun y hy => g1.isBase (hl y (by simp [hy]))).post fun _ s2 _ g2 ⟨h2, r2⟩ => ⟨fun y hy => ?_, r1.then r2 g1.bases g2⟩
    rcases List.mem_cons.1 hy with rfl | hy
    · exact g2.concrete h1 id
    · exact h2 y hy

/-- Giving the target the type of another base. -/
theorem likeOther_run (hS : ∀ loc v, Sub E K allPaths c loc v) {i : Addr} {facets : Option (List YNode)} (hw : W E P s) (hx : K.X s) (ha : IsBase s a) (hi : Concrete s i) :
    Run E K True P ((only allPaths).addB a) (M.bind (Heap.getBase i) fun ib => makeConcrete E c a ib.type facets) s (fun _ s' => Concrete s' a ∧ Res (· = a) s s') := by
  refine Run.bind (Run.getBase hw hx) fun ib s1 hw1 hx1 _ ⟨e, hib⟩ => ?_
  subst e
  obtain ⟨ib', h1, sh, _, hk, hn⟩ := hi
  rw [h1] at hib; cases hib
  rw [hk] at hn
  obtain ⟨b, hb⟩ := isBase_base ha
  exact (concrete_run hS hw1 hx1 hb hn).post fun _ s2 _ _ ⟨⟨sh2, h2, hm⟩, r2⟩ => ⟨⟨_, h2, typed_of hm hn⟩, r2⟩

theorem resolveStep_run (hS : ∀ loc v, Sub E K allPaths c loc v) (hrec : RecSpec E K rec) : RecSpec E K (resolveStep E c rec) := by
  intro P s a hw hx hc ha
  unfold resolveStep
  refine Run.bind (Run.getBase hw hx) fun b s1 hw1 hx1 _ ⟨e, hb⟩ => ?_
  subst e
  have hall := hc.all hw1 hb
  cases hsh : b.shape with
  | none => exact Run.err hw1 hx1
  | some sh =>
    by_cases hu : Kind sh = "unknown"
    · obtain ⟨facets, hf⟩ := kind_unknown hu
      subst hf
      have hunk : Unk b := ⟨facets, hsh⟩
      simp only
      cases hlink : b.link with
      | some dt =>
        simp only
        refine Run.finish (a := a) ?_ (not_concrete hb hunk) fun _ _ h => h.1
        cases hd : (s1.dts[dt]?).bind (·.shape) with
        | none => exact Run.of_eq (m' := M.panic "nil pointer dereference") (by simp [resolveLink, hd, M.panic]) Run.panic
        | some l =>
          refine Run.of_eq (m' := M.bind (rec l) fun _ => M.bind (Heap.getBase l) fun lb => makeConcrete E c a lb.type facets) (by simp [resolveLink, hd]) ?_
          obtain ⟨d, hd1, hd2⟩ := Option.bind_eq_some_iff.1 hd
          have hl : IsBase s1 l := by
            obtain ⟨l', h1, h2⟩ := (hw1.dt dt d hd1).shape
            rw [hd2] at h1; cases h1; exact h2
          refine Run.bind' (hrec P s1 l hw1 hx1 hc hl) only_addB (Perm.Le.refl _ _) fun _ s2 hw2 hx2 g2 ⟨h2, r2⟩ => ?_
          exact (likeOther_run hS hw2 hx2 (g2.isBase ha) h2).post fun _ s3 _ g3 ⟨h3, r3⟩ =>
            ⟨h3, ((r2.weaken fun _ h => h.elim).thenB r3 g2.bases ha g3).full hb fun _ _ _ hl => by rw [hlink] at hl; cases hl⟩
      | none =>
        simp only
        split
        · rename_i hcomp
          refine Run.finish (a := a) ?_ (not_concrete hb hunk) fun _ _ h => h.1
          unfold resolveMultipleInheritance
          refine Run.bind (Run.getBase hw1 hx1) fun b' s2 hw2 hx2 _ ⟨e, hb'⟩ => ?_
          subst e
          rw [hb] at hb'; cases hb'
          refine Run.of_eq (m' := M.bind (M.forEach rec (s2.slice b.inherits)) fun _ =>
            match (s2.slice b.inherits).head? with
            | none => M.panic "index out of range"
            | some i => M.bind (Heap.getBase i) fun ib => makeConcrete E c a ib.type facets) rfl ?_
          refine Run.bind' (forEach_run hrec _ hw2 hx2 hc (slices_isBase hw2)) only_addB (Perm.Le.refl _ _) fun _ s3 hw3 hx3 g3 ⟨h3, r3⟩ => ?_
          cases hh : (s2.slice b.inherits).head? with
          | none => exact Run.panic
          | some i =>
            exact (likeOther_run hS hw3 hx3 (g3.isBase ha) (h3 i (List.mem_of_mem_head? hh))).post fun _ s4 _ g4 ⟨h4, r4⟩ =>
              ⟨h4, ((r3.weaken fun _ h => h.elim).thenB r4 g3.bases ha g4).full hb fun _ _ _ _ hn => absurd hcomp hn⟩
        · cases hp : parseTypeExpression b.type with
          | none => exact Run.err hw1 hx1
          | some tree => exact ((visitor_run hS hrec tree).1 P s1 a b facets hw1 hx1 hc hb hunk).post fun _ s2 _ _ ⟨h2, r2⟩ =>
            ⟨layout_concrete tree h2, r2.full hb fun facets' tree' hf _ _ ht => by
              rw [hsh] at hf; cases hf
              rw [hp] at ht; cases ht
              exact h2⟩
    · have hty : Typed b := by
        rcases hall with ⟨f, hf⟩ | h
        · rw [hsh] at hf; cases hf; exact absurd rfl hu
        · exact h
      have : Run E K True P (only allPaths) (M.ret ()) s1 (fun _ s' => Concrete s' a ∧ Res noBase s1 s') := Run.ret hw1 hx1 ⟨⟨b, hb, hty⟩, Res.refl _ _⟩
      cases sh with
      | unknown f => exact absurd rfl hu
      | _ => exact this

end

/-- Resolving a type: the invariant is kept, and the type is resolved. -/
theorem resolveShape_run {E : Env} {K : Ctl} (hdiv : K.div) (hR : Regs E K) : ∀ n, RecSpec E K (resolveShape E n)
  | 0 => fun _ _ _ _ _ _ _ => hdiv
  | n + 1 => resolveStep_run (fun _ _ => (specs hdiv hR n).sub fun _ _ _ _ _ => trivial) (resolveShape_run hdiv hR n)

end GoRaml.Load
