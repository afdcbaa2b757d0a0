import Verif.Lemmas.KinUnwrap

/-!
# Families of scalar types: unwrapping of any type
-/

namespace GoRaml.Kin

open GoRaml GoRaml.Spec GoRaml.Whole

variable {F : Fam} {rk : Addr → Nat}

/-- No member of the family is marked as visited. -/
def Calm (F : Fam) (s : St) : Prop := ∀ d, F.D d → visitedAt s d ≠ some true

/-- The invariant, with each member of the family as it was or done. -/
def All (F : Fam) (s : St) : Prop := Inv F s ∧ ∀ d, F.D d → DSt F s d

/-- Outside the family, an unwrapped type stays unwrapped, and does not get the facet definitions of a member of the family. -/
def Rk (F : Fam) (s s' : St) : Prop := ∀ x b, ¬ F.D x → s.base x = some b → b.unwrapped = true →
  ∃ b', s'.base x = some b' ∧ b'.unwrapped = true ∧ ((∀ i, b.facetDefs = some i → ¬ F.E i) → ∀ i, b'.facetDefs = some i → ¬ F.E i)

theorem Rk.refl (s : St) : Rk F s s := fun _ b _ h1 h2 => ⟨b, h1, h2, id⟩

theorem Rk.trans {s t u : St} (h : Rk F s t) (k : Rk F t u) : Rk F s u := fun x b h0 h1 h2 => by
  obtain ⟨b1, j1, j2, j3⟩ := h x b h0 h1 h2
  obtain ⟨b2, k1, k2, k3⟩ := k x b1 h0 j1 j2
  exact ⟨b2, k1, k2, fun h => k3 (j3 h)⟩

theorem Rk.same {s t : St} (h : t.bases = s.bases) : Rk F s t := fun x b _ h1 h2 => ⟨b, by unfold St.base at h1 ⊢; rw [h]; exact h1, h2, id⟩

theorem Rel.toRk {s t : St} (h : Rel F s t) : Rk F s t := fun x b _ h1 h2 => by
  obtain ⟨b', j1, j2, j3, _⟩ := h x b h1
  exact ⟨b', j1, j2.trans h2, fun h3 i hi => h3 i (j3 ▸ hi)⟩

theorem Rk.upd {s : St} {a : Addr} {f : Base → Base}
    (hf : ∀ b, s.base a = some b → b.unwrapped = true → (f b).unwrapped = true ∧ ((∀ i, b.facetDefs = some i → ¬ F.E i) → ∀ i, (f b).facetDefs = some i → ¬ F.E i)) :
    Rk F s { s with bases := s.bases.modify a f } := fun x b _ h1 h2 => by
  by_cases hx : x = a
  · subst hx; exact ⟨_, base_upd_self h1, hf b h1 h2⟩
  · exact ⟨b, (base_upd_ne hx).trans h1, h2, id⟩

/-- An unwrapped type outside the family whose facet definitions are not those of a member. -/
def Own (F : Fam) (s : St) (a : Addr) : Prop := ¬ F.D a ∧ ∃ b, s.base a = some b ∧ b.unwrapped = true ∧ ∀ i, b.facetDefs = some i → ¬ F.E i

theorem Own.next {s s' : St} {a : Addr} (h : Own F s a) (k : Rk F s s') : Own F s' a := by
  obtain ⟨h0, b, h1, h2, h3⟩ := h
  obtain ⟨b', k1, k2, k3⟩ := k a b h0 h1 h2
  exact ⟨h0, b', k1, k2, k3 h3⟩

/-- A visited type stays visited. -/
def Sticks {α : Type} (m : M St α) : Prop := ∀ d, Keeps (VKeep d) m

theorem Calm.before {α : Type} {m : M St α} {s : St} (hm : Sticks m) (h : Calm F (m s).2) : Calm F s := fun d hd hv => h d hd (hm d s hv)

theorem Sticks.bind {α β : Type} {m : M St α} {f : α → M St β} (h : Sticks m) (k : ∀ x, Sticks (f x)) : Sticks (M.bind m f) :=
  fun d => Keeps.bind VKeep.tr (h d) fun x => k x d

/-- If the run succeeds and leaves no member of the family visited: the invariant, the relation, and `Q`. -/
def Go {α : Type} (F : Fam) (m : M St α) (s : St) (Q : α → St → Prop) : Prop := ∀ x s', m s = (.ok x, s') → Calm F s' → All F s' ∧ Rk F s s' ∧ Q x s'

theorem Go.bind {α β : Type} {m : M St α} {f : α → M St β} {s : St} {Q : α → St → Prop} {Q' : β → St → Prop} (h1 : Go F m s Q) (hs : ∀ x, Sticks (f x))
    (h2 : ∀ x s', All F s' → Rk F s s' → Q x s' → Go F (f x) s' Q') : Go F (M.bind m f) s Q' := by
  intro y s'' h hc
  obtain ⟨x, s', hm, hf⟩ := M.bind_ok.1 h
  have hc' : Calm F s' := Calm.before (hs x) (by rw [hf]; exact hc)
  obtain ⟨w1, r1, q1⟩ := h1 x s' hm hc'
  obtain ⟨w2, r2, q2⟩ := h2 x s' w1 r1 q1 y s'' hf hc
  exact ⟨w2, r1.trans r2, q2⟩

theorem Go.ret {α : Type} {x : α} {s : St} {Q : α → St → Prop} (hw : All F s) (hq : Q x s) : Go F (M.ret x) s Q := by
  intro y s' h _; cases h; exact ⟨hw, Rk.refl s, hq⟩

theorem Go.err {α : Type} {e : String} {s : St} {Q : α → St → Prop} : Go F (M.err e : M St α) s Q := by
  intro y s' h _; cases h

theorem Go.diverge {α : Type} {s : St} {Q : α → St → Prop} : Go F (M.diverge : M St α) s Q := by
  intro y s' h _; cases h

theorem Go.panic {α : Type} {e : String} {s : St} {Q : α → St → Prop} : Go F (M.panic e : M St α) s Q := by
  intro y s' h _; cases h

theorem Go.congr {α : Type} {m m' : M St α} {s : St} {Q : α → St → Prop} (h : m' s = m s) (hs : Go F m s Q) : Go F m' s Q := by
  intro y s' hy; rw [h] at hy; exact hs y s' hy

theorem Go.getBase {a : Addr} {s : St} (hw : All F s) : Go F (Heap.getBase a) s fun b s' => s' = s ∧ s.base a = some b := by
  intro b s' h _
  unfold Heap.getBase at h
  cases hb : s.base a with
  | none => rw [hb] at h; cases h
  | some b' => rw [hb] at h; cases h; exact ⟨hw, Rk.refl _, rfl, rfl⟩

theorem Go.getShape {a : Addr} {s : St} (hw : All F s) : Go F (Heap.getShape a) s fun sh s' => s' = s ∧ s.shapeAt a = some sh := by
  intro b s' h _
  unfold Heap.getShape at h
  cases hb : s.shapeAt a with
  | none => rw [hb] at h; cases h
  | some b' => rw [hb] at h; cases h; exact ⟨hw, Rk.refl _, rfl, rfl⟩

theorem All.next {s s' : St} (hw : All F s) (hi : Inv F s') (h : ∀ d, F.D d → s'.base d = s.base d) : All F s' := ⟨hi, fun d hd => (hw.2 d hd).same (h d hd)⟩

theorem All.rel (hc : Closed F rk) {s s' : St} (hw : All F s) (hi : Inv F s') (h : Rel F s s') : All F s' := by
  refine hw.next hi fun d hd => ?_
  obtain ⟨b, q, hb, _⟩ := (hw.2 d hd).info hc hd
  obtain ⟨b', h1, _, _, h4⟩ := h d b hb
  rw [h1, hb, h4 hd]

theorem Go.of (hc : Closed F rk) {α : Type} {m : M St α} {s : St} {Q : α → St → Prop} (hw : All F s) (h : Ok F m s Q) : Go F m s Q := by
  intro x s' he _
  have := h
  unfold Ok Safe Outcome at this
  rw [he] at this
  exact ⟨hw.rel hc this.1 this.2.1, this.2.1.toRk, this.2.2⟩

theorem Go.upd {s : St} {a : Addr} {f : Base → Base} (hw : All F s) (ha : ¬ F.D a) (hf : ∀ b, s.base a = some b → ∀ sh, (f b).shape = some sh → ShapeOut F sh)
    (hr : Rk F s { s with bases := s.bases.modify a f }) :
    Go F (Heap.updBase a f) s fun _ s' => s' = { s with bases := s.bases.modify a f } := by
  intro x s' h _
  cases h
  exact ⟨hw.next (hw.1.upd hf) fun d hd => base_upd_ne (by rintro rfl; exact ha hd), hr, rfl⟩

theorem Go.heap {α : Type} {m : M St α} {s : St} {x : α} {s1 : St} {Q : α → St → Prop} (hw : All F s) (he : m s = (.ok x, s1)) (hi : Inv F s1) (hb : s1.bases = s.bases) (hq : Q x s1) :
    Go F m s Q := by
  intro y s' h _
  rw [he] at h
  cases h
  exact ⟨hw.next hi fun d _ => by unfold St.base; rw [hb], Rk.same hb, hq⟩

/-! ## Inheriting from a member of the family -/

theorem inherit_member (hc : Closed F rk) {n : Nat} {x d r : Addr} {s s' : St} (hw : All F s) (hx : ¬ F.D x) (hd : F.D d) (h : inherit n x d s = (.ok r, s')) :
    visitedAt s' d = some true ∨ (r = x ∧ Inv F s' ∧ Rel F s s') := by
  obtain ⟨bd, u, hbd, hv, hu, hpu⟩ := (hw.2 d hd).info hc hd
  have hxd : x ≠ d := by rintro rfl; exact hx hd
  cases n with
  | zero => simp [inherit, M.diverge] at h
  | succ n =>
    cases hbx : s.base x with
    | none => simp [inherit, M.bind, Heap.getBase, hbx] at h
    | some bx =>
      obtain ⟨h1, c, hvis, hrun⟩ := inherit_prelude hbx hbd hv n
      obtain ⟨b1, e1, k1⟩ := c.type hbx
      obtain ⟨b2, e2, k2⟩ := c.type hbd
      have s1 : b1.shape = bx.shape := by simpa [Base.core] using congrArg Base.shape k1
      have s2 : b2.shape = some u := (show b2.shape = bd.shape by simpa [Base.core] using congrArg Base.shape k2).trans hu
      have hvd : visitedAt h1 d = some true := by rw [hvis]; simp
      cases ht : bx.shape with
      | none =>
        rw [hrun] at h
        unfold inheritDispatch at h
        rw [M.bind_of_ok (show Heap.getBase x h1 = (.ok b1, h1) by simp [Heap.getBase, e1]),
          M.bind_of_ok (show Heap.getBase d h1 = (.ok b2, h1) by simp [Heap.getBase, e2])] at h
        rw [s1, ht, s2] at h
        cases u <;> first | exact hpu.1.elim | exact absurd rfl hpu.2 | cases h
      | some t =>
        by_cases hst : IsScalarTarget t
        · obtain ⟨rfl, tch, sh, b', hl, hb', hs', hu', _, hf'⟩ := inherit_exact hxd hbx hbd ht hu hv hst hpu h
          refine .inr ⟨rfl, ?_, fun z b hz => ?_⟩
          · refine hw.1.grow (by rw [tch.len]) (fun a b hb => ?_) (fun m hm => .inl (tch.pmaps ▸ hm)) (fun _ _ => by rw [tch.pmaps]) (fun m hm => .inl (tch.ppmaps ▸ hm))
              (slices_same tch.slices) (by rw [tch.dts])
            by_cases ha : a = r
            · subst ha
              rw [hb'] at hb; cases hb
              exact .inr fun sh2 hs2 => by rw [hs'] at hs2; cases hs2; exact leafInherit_out hl
            · exact .inl (by rw [← tch.others a ha]; exact hb)
          · by_cases hzr : z = r
            · subst hzr
              rw [hbx] at hz; cases hz
              exact ⟨b', hb', hu', hf', fun hD => absurd hD hx⟩
            · exact ⟨b, (tch.others z hzr).trans hz, rfl, rfl, fun _ => rfl⟩
        · have hsx : s.shapeAt x = some t := by rw [shapeAt_of_base hbx, ht]
          have hsd : s.shapeAt d = some u := by rw [shapeAt_of_base hbd, hu]
          cases t with
          | union l e =>
            left
            have : Keeps (VKeep d) (inheritDispatch (inherit n) x d) ∨ VKeep d h1 (inheritDispatch (inherit n) x d h1).2 := by
              right
              unfold inheritDispatch
              rw [M.bind_of_ok (show Heap.getBase x h1 = (.ok b1, h1) by simp [Heap.getBase, e1]),
                M.bind_of_ok (show Heap.getBase d h1 = (.ok b2, h1) by simp [Heap.getBase, e2])]
              rw [s1, ht, s2]
              cases u <;> first | exact hpu.1.elim | exact absurd rfl hpu.2 | exact vkeep_inheritUnionTarget (vkeep_inherit d n) x _ h1
            rw [hrun] at h
            rcases this with k | k
            · have := k h1 hvd; rw [h] at this; exact this
            · have := k hvd; rw [h] at this; exact this
          | array f =>
            obtain ⟨m, h', he⟩ := inherit_mixed hsx hsd (by simp [visitedAt, hbd, hv]) (fun _ _ h => by cases h) hpu.2 hpu.notUnion
              (fun rec => ⟨"cannot inherit from different type", .inl (by cases u <;> first | exact hpu.1.elim | rfl)⟩) n
            rw [he] at h; cases h
          | object f =>
            obtain ⟨m, h', he⟩ := inherit_mixed hsx hsd (by simp [visitedAt, hbd, hv]) (fun _ _ h => by cases h) hpu.2 hpu.notUnion
              (fun rec => ⟨"cannot inherit from different type", .inl (by cases u <;> first | exact hpu.1.elim | rfl)⟩) n
            rw [he] at h; cases h
          | _ => exact absurd trivial hst

theorem inherit_go (hc : Closed F rk) {n : Nat} {x y : Addr} {s : St} (hw : All F s) (hx : ¬ F.D x) : Go F (inherit n x y) s fun r _ => ¬ F.D r := by
  by_cases hy : F.D y
  · intro r s' h hcalm
    rcases inherit_member hc hw hx hy h with h | ⟨rfl, h1, h2⟩
    · exact absurd h (hcalm y hy)
    · exact ⟨hw.rel hc h1 h2, h2.toRk, hx⟩
  · exact Go.of hc hw (inherit_ok n x y s hw.1 hx hy)

/-! ## Unwrapping -/

/-- What the recursive call of an unwrapping function does. -/
def URec (F : Fam) (rec : Addr → M St Addr) : Prop := ∀ a s, All F s → Go F (rec a) s fun r s' => (F.D a → r = a ∧ s'.slices = s.slices) ∧ (¬ F.D a → ¬ F.D r)

theorem URec.out {rec : Addr → M St Addr} (hr : URec F rec) {a : Addr} {s : St} (hw : All F s) (ha : ¬ F.D a) : Go F (rec a) s fun r _ => ¬ F.D r := by
  intro x s' h hcalm
  obtain ⟨h1, h2, h3⟩ := hr a s hw x s' h hcalm
  exact ⟨h1, h2, h3.2 ha⟩

theorem whenSome_go {α : Type} {p : Option α} {f : α → M St Unit} {s : St} (hw : All F s) (h : ∀ a, p = some a → Go F (f a) s fun _ _ => True) :
    Go F (whenSome p f) s fun _ _ => True := by
  cases p with
  | none => exact Go.ret hw trivial
  | some a => exact h a rfl

theorem Sticks.heap {α : Type} {m : M St α} (h : ∀ s, (m s).2.bases = s.bases) : Sticks m := fun _ s => vkeep_bases (h s)

theorem Go.done {α : Type} {m : M St α} {s : St} {Q : α → St → Prop} (h : Go F m s Q) : Go F m s fun _ _ => True := fun x s' he hc =>
  ⟨(h x s' he hc).1, (h x s' he hc).2.1, trivial⟩

theorem Inv.setSliceAt {s : St} {i k : Nat} {x : Addr} (hw : Inv F s) (hx : ¬ F.D x) (h0 : k = 0 → ∀ q, F.s0.slices[i]? = some [q] → ¬ F.D q) :
    Inv F { s with slices := s.slices.modify i fun l => l.set k x } where
  len := hw.len
  base := hw.base
  props := hw.props
  pats := hw.pats
  empt := hw.empt
  slc j l h hn p hp := by
    simp only [List.getElem?_modify] at h
    cases hj : s.slices[j]? with
    | none => rw [hj] at h; cases h
    | some m =>
      rw [hj] at h
      simp only [Option.map_eq_map, Option.map_some, Option.some.injEq] at h
      split at h
      · subst h
        rcases List.mem_or_eq_of_mem_set hp with hp | rfl
        · exact hw.slc j m hj hn p hp
        · exact hx
      · subst h; exact hw.slc j m hj hn p hp
  one j q h hq := by
    have := hw.one j q h hq
    simp only [List.getElem?_modify, this, Option.map_some, Option.some.injEq]
    split
    · rename_i hij; subst hij
      cases k with
      | zero => exact absurd hq (h0 rfl q h)
      | succ k => rfl
    · rfl
  zero j h := by
    have := hw.zero j h
    simp only [List.getElem?_modify, this, Option.map_some, Option.some.injEq]
    split <;> rfl
  many j p q l h := by
    simp only [List.getElem?_modify] at h
    cases hj : s.slices[j]? with
    | none => rw [hj] at h; cases h
    | some m =>
      rw [hj] at h
      simp only [Option.map_eq_map, Option.map_some, Option.some.injEq] at h
      split at h
      · cases k with
        | zero =>
          cases m with
          | nil => cases h
          | cons y m => simp only [List.set_cons_zero, List.cons.injEq] at h; rw [← h.1]; exact hx
        | succ k =>
          cases m with
          | nil => cases h
          | cons y m =>
            simp only [List.set_cons_succ, List.cons.injEq] at h
            cases m with
            | nil => cases h.2
            | cons z m => rw [← h.1]; exact hw.many j y z m hj
      · subst h; exact hw.many j p q l hj
  slen j h := by simp only [List.length_modify]; exact hw.slen j h
  dts := hw.dts

theorem Go.setSliceAt {s : St} {i k : Nat} {x : Addr} (hw : All F s) (hx : ¬ F.D x) (h0 : k = 0 → ∀ q, F.s0.slices[i]? = some [q] → ¬ F.D q) :
    Go F (Heap.setSliceAt i k x) s fun _ _ => True := Go.heap hw rfl (hw.1.setSliceAt hx h0) rfl trivial

theorem Inv.putShape {s : St} {a : Addr} (hw : Inv F s) : Inv F { s with shapes := s.shapes ++ [a] } :=
  ⟨hw.len, hw.base, hw.props, hw.pats, hw.empt, hw.slc, hw.one, hw.zero, hw.many, hw.slen, hw.dts⟩

theorem Go.putShape {s : St} {a : Addr} (hw : All F s) : Go F (Heap.putShape a) s fun _ _ => True := Go.heap hw rfl hw.1.putShape rfl trivial

theorem Inv.noProps {s : St} (hw : Inv F s) {i : Nat} (h : s.props (some i) ≠ []) : ¬ F.E i := fun he => h (by unfold St.props; simp only; rw [hw.empt i he]; rfl)

section
variable (hc : Closed F rk) {rec : Addr → M St Addr} (hr : URec F rec) (hv : ∀ a, Sticks (rec a))
include hr hv

theorem unwrapProps_go {i : Nat} : ∀ {n k : Nat} {s : St}, All F s → Go F (unwrapProps rec i n k) s fun _ _ => True
  | 0, _, _, hw => Go.diverge
  | n + 1, k, s, hw => by
    cases hk : (s.props (some i))[k]? with
    | none => exact Go.congr (m := M.ret ()) (by simp only [unwrapProps, hk]; rfl) (Go.ret hw trivial)
    | some kp =>
      have hE : ¬ F.E i := hw.1.noProps (by intro h; rw [h] at hk; cases hk)
      refine Go.congr (m := M.bind (rec kp.2.base) fun us => M.bind (Heap.setPropAt i k (kp.1, { kp.2 with base := us })) fun _ => unwrapProps rec i n (k + 1))
        (by simp only [unwrapProps, hk]) ?_
      refine Go.bind (hr.out hw (hw.1.propsOf (List.mem_of_getElem? hk)))
        (fun us => Sticks.bind (Sticks.heap fun _ => rfl) fun _ d => vkeep_unwrapProps (fun a => hv a d) i n (k + 1)) fun us s1 hw1 g1 q1 => ?_
      refine Go.bind (Q := fun _ _ => True) (Go.heap hw1 rfl (hw1.1.setPropAt hE q1) rfl trivial) (fun _ d => vkeep_unwrapProps (fun a => hv a d) i n (k + 1)) fun _ s2 hw2 g2 _ => unwrapProps_go hw2

theorem unwrapPatProps_go {i : Nat} : ∀ {n k : Nat} {s : St}, All F s → Go F (unwrapPatProps rec i n k) s fun _ _ => True
  | 0, _, _, hw => Go.diverge
  | n + 1, k, s, hw => by
    cases hk : (s.patProps (some i))[k]? with
    | none => exact Go.congr (m := M.ret ()) (by simp only [unwrapPatProps, hk]; rfl) (Go.ret hw trivial)
    | some kp =>
      refine Go.congr (m := M.bind (rec kp.2.base) fun us => M.bind (Heap.setPatPropAt i k (kp.1, { kp.2 with base := us })) fun _ =>
        unwrapPatProps rec i n (k + 1)) (by simp only [unwrapPatProps, hk]) ?_
      refine Go.bind (hr.out hw (hw.1.patsOf (List.mem_of_getElem? hk)))
        (fun us => Sticks.bind (Sticks.heap fun _ => rfl) fun _ d => vkeep_unwrapPatProps (fun a => hv a d) i n (k + 1)) fun us s1 hw1 g1 q1 => ?_
      refine Go.bind (Q := fun _ _ => True) (Go.heap hw1 rfl (hw1.1.setPatPropAt q1) rfl trivial) (fun _ d => vkeep_unwrapPatProps (fun a => hv a d) i n (k + 1))
        fun _ s2 hw2 g2 _ => unwrapPatProps_go hw2

theorem unwrapMembers_go {i : Nat} (hi : ¬ F.SL i) : ∀ {n k : Nat} {s : St}, All F s → Go F (unwrapMembers rec i n k) s fun _ _ => True
  | 0, _, _, hw => Go.diverge
  | n + 1, k, s, hw => by
    cases hk : (s.slice (some i))[k]? with
    | none => exact Go.congr (m := M.ret ()) (by simp only [unwrapMembers, hk]; rfl) (Go.ret hw trivial)
    | some m =>
      refine Go.congr (m := M.bind (rec m) fun us => M.bind (Heap.setSliceAt i k us) fun _ => unwrapMembers rec i n (k + 1))
        (by simp only [unwrapMembers, hk]) ?_
      refine Go.bind (hr.out hw (hw.1.sliceOf (p := some i) (fun j hj => by cases hj; exact hi) (List.mem_of_getElem? hk)))
        (fun us => Sticks.bind (Sticks.heap fun _ => rfl) fun _ d => vkeep_unwrapMembers (fun a => hv a d) i n (k + 1)) fun us s1 hw1 g1 q1 => ?_
      exact Go.bind (Go.setSliceAt hw1 q1 fun _ q hq hd => hi ⟨[q], hq, q, by simp, hd⟩) (fun _ d => vkeep_unwrapMembers (fun a => hv a d) i n (k + 1))
        fun _ s2 hw2 g2 _ => unwrapMembers_go hi hw2

omit hv in
theorem Go.setArrayItems (hc : Closed F rk) {a us : Addr} {s : St} (hw : All F s) (ha : ¬ F.D a) (hu : ¬ F.D us) :
    Go F (fun h' => setArray a { arrayAt h' a with items := some us } h') s fun _ _ => True :=
  Go.of hc hw (Ok.setArray hw.1 ha fun x hx => by cases hx; exact hu)

include hc

theorem unwrapTarget_go {n : Nat} {a : Addr} {s : St} (hw : All F s) (ha : ¬ F.D a) : Go F (unwrapTarget rec n a) s fun _ _ => True := by
  refine Go.congr (m := unwrapTargetShape rec n a (s.shapeAt a)) rfl ?_
  unfold unwrapTargetShape
  split
  · rename_i f hf
    refine whenSome_go hw fun i hi => ?_
    exact Go.bind (hr.out hw (hw.1.shapeAt hf i hi)) (fun _ d h => vkeep_setArray _ _ h) fun us s1 hw1 g1 q1 => Go.setArrayItems hr hc hw1 ha q1
  · rename_i f hf
    refine Go.bind (whenSome_go hw fun i hi => unwrapProps_go hr hv hw) (fun _ d h => vkeep_when (fun x => vkeep_unwrapPatProps (fun a => hv a d) x n 0) _ h) fun _ s1 hw1 g1 _ => ?_
    exact whenSome_go hw1 fun i hi => unwrapPatProps_go hr hv hw1
  · rename_i l e hf
    exact whenSome_go hw fun i hi => unwrapMembers_go hr hv (hw.1.shapeAt hf i hi) hw
  · exact Go.ret hw trivial

theorem unwrapMoreParents_go {n : Nat} {ss : Addr} {i : Nat} (hss : ¬ F.D ss) : ∀ {left k : Nat} {s : St}, 0 < k → All F s →
    Go F (unwrapMoreParents rec n ss i left k) s fun _ _ => True
  | 0, _, _, _, hw => Go.ret hw trivial
  | left + 1, k, s, hpos, hw => by
    cases hk : (s.slice (some i))[k]? with
    | none => exact Go.congr (m := M.ret ()) (by simp only [unwrapMoreParents, hk]; rfl) (Go.ret hw trivial)
    | some p =>
      refine Go.congr (m := M.bind (rec p) fun us => M.bind (inherit n ss us) fun us' => M.bind (Heap.setSliceAt i k us') fun _ =>
        unwrapMoreParents rec n ss i left (k + 1)) (by simp only [unwrapMoreParents, hk]) ?_
      have st : Sticks (unwrapMoreParents rec n ss i left (k + 1)) := fun d => vkeep_unwrapMoreParents (fun a => hv a d) n ss i left (k + 1)
      refine Go.bind (hr p s hw) (fun us => Sticks.bind (fun d => vkeep_inherit d n ss us) fun _ => Sticks.bind (Sticks.heap fun _ => rfl) fun _ => st) fun us s1 hw1 g1 _ => ?_
      refine Go.bind (inherit_go hc hw1 hss) (fun _ => Sticks.bind (Sticks.heap fun _ => rfl) fun _ => st) fun us' s2 hw2 g2 q2 => ?_
      exact Go.bind (Go.setSliceAt hw2 q2 fun h => absurd h (Nat.pos_iff_ne_zero.1 hpos)) (fun _ => st) fun _ s3 hw3 g3 _ => unwrapMoreParents_go hss (Nat.succ_pos k) hw3

theorem unwrapParents_go {n : Nat} {a : Addr} {s : St} (hw : All F s) (ha : ¬ F.D a) : Go F (unwrapParents rec n a) s fun _ _ => True := by
  refine Go.bind (Go.getBase hw) (fun b d h => ?_) fun b s0 hw0 g0 q0 => ?_
  · split
    · split
      · exact VKeep.rfl' h
      · exact Keeps.tail VKeep.tr (hv _ d) (fun _ => Keeps.bind VKeep.tr (vkeep_upd (by intro _ h; exact h)) fun _ => vkeep_ret _) h
    · split
      · exact Keeps.tail VKeep.tr (hv _ d) (fun _ => Keeps.bind VKeep.tr (fun _ => vkeep_bases rfl) fun _ =>
          Keeps.bind VKeep.tr (vkeep_unwrapMoreParents (fun a => hv a d) n _ _ _ _) fun _ => vkeep_ret _) h
      · exact VKeep.rfl' h
  obtain ⟨rfl, hb⟩ := q0
  cases hl : b.link with
  | some d =>
    cases hd : (s0.dts[d]?).bind (·.shape) with
    | none => exact Go.congr (m := M.panic "nil pointer dereference") (by simp only [hd]; rfl) Go.panic
    | some x =>
      refine Go.congr (m := M.bind (rec x) fun us => M.bind (Heap.updBase a fun y => { y with link := none }) fun _ => M.ret (some us))
        (by simp only [hd]) ?_
      have st : Sticks (Heap.updBase a fun y => { y with link := none }) := fun d => vkeep_upd fun _ h => h
      refine Go.bind (hr x _ hw) (fun us => Sticks.bind st fun _ d => vkeep_ret _) fun us s1 hw1 g1 q1 => ?_
      exact Go.bind (Go.upd hw1 ha (fun b hb sh hs => hw1.1.base a b sh hb hs) (Rk.upd fun _ _ h => ⟨h, id⟩)) (fun _ d => vkeep_ret _) fun _ s2 hw2 g2 _ => Go.ret hw2 trivial
  | none =>
    simp only
    cases hi : b.inherits with
    | none => exact Go.congr (m := M.ret none) rfl (Go.ret hw trivial)
    | some i =>
      cases hs : s0.slice (some i) with
      | nil => exact Go.congr (m := M.ret none) (by simp only [hs]; rfl) (Go.ret hw trivial)
      | cons p ps =>
        refine Go.congr (m := M.bind (rec p) fun ss => M.bind (Heap.setSliceAt i 0 ss) fun _ => M.bind (unwrapMoreParents rec n ss i ps.length 1) fun _ =>
          M.ret (some ss)) (by simp only [hs]) ?_
        have hsi : s0.slices[i]? = some (p :: ps) := by
          unfold St.slice at hs
          simp only at hs
          cases h : s0.slices[i]? with
          | none => rw [h] at hs; cases hs
          | some l => rw [h] at hs; exact congrArg some hs
        have st : ∀ ss, Sticks (M.bind (unwrapMoreParents rec n ss i ps.length 1) fun _ => M.ret (some ss)) := fun ss =>
          Sticks.bind (fun d => vkeep_unwrapMoreParents (fun a => hv a d) n ss i ps.length 1) fun _ d => vkeep_ret _
        refine Go.bind (hr p _ hw) (fun ss => Sticks.bind (Sticks.heap fun _ => rfl) fun _ => st ss) fun ss s1 hw1 g1 q1 => ?_
        by_cases hp : F.D p
        · obtain ⟨rfl, hsl⟩ := q1.1 hp
          cases ps with
          | cons q l => exact absurd hp (hw.1.many i ss q l hsi)
          | nil =>
            refine Go.bind (Q := fun _ _ => True) (Go.heap (x := ()) (s1 := s1) hw1 ?_ hw1.1 rfl trivial) (fun _ => st ss) fun _ s2 hw2 _ _ => ?_
            · unfold Heap.setSliceAt
              have : s1.slices.modify i (fun l => l.set 0 ss) = s1.slices := by
                apply List.ext_getElem?
                intro j
                rw [List.getElem?_modify]
                by_cases hj : i = j
                · subst hj; rw [hsl, hsi]; simp
                · simp [hj]
              rw [this]
            · exact Go.bind (Q := fun _ _ => True) (Go.ret hw2 trivial) (fun _ d => vkeep_ret _) fun _ s3 hw3 _ _ => Go.ret hw3 trivial
        · have hss := q1.2 hp
          refine Go.bind (Go.setSliceAt hw1 hss fun _ q hq hD => ?_) (fun _ => st ss) fun _ s2 hw2 g2 _ => ?_
          · have := hw.1.one i q hq hD
            rw [hsi] at this
            cases this
            exact hp hD
          · exact Go.bind (unwrapMoreParents_go hc hr hv hss Nat.one_pos hw2) (fun _ d => vkeep_ret _) fun _ s3 hw3 g3 _ => Go.ret hw3 trivial

theorem unwrapFacetDefs_go {a : Addr} {i : Nat} : ∀ {n k : Nat} {s : St}, All F s → Own F s a → Go F (unwrapFacetDefs rec a i n k) s fun _ _ => True
  | 0, _, _, _, _ => Go.diverge
  | n + 1, k, s, hw, ha => by
    cases hk : (s.props (some i))[k]? with
    | none => exact Go.congr (m := M.ret ()) (by simp only [unwrapFacetDefs, hk]; rfl) (Go.ret hw trivial)
    | some kp =>
      refine Go.congr (m := M.bind (rec kp.2.base) fun us => M.bind (Heap.newProps []) fun j => M.bind (Heap.updBase us fun y => { y with facetDefs := some j })
        fun _ => M.bind (Heap.getBase a) fun b => M.bind (whenSome b.facetDefs fun i' => Heap.setProp i' kp.1 { kp.2 with base := us }) fun _ =>
        unwrapFacetDefs rec a i n (k + 1)) (by simp only [unwrapFacetDefs, hk]) ?_
      have st1 : Sticks (unwrapFacetDefs rec a i n (k + 1)) := fun d => vkeep_unwrapFacetDefs (fun a => hv a d) a i n (k + 1)
      have st2 : ∀ us (b : Base), Sticks (M.bind (whenSome b.facetDefs fun i' => Heap.setProp i' kp.1 { kp.2 with base := us }) fun _ => unwrapFacetDefs rec a i n (k + 1)) :=
        fun us b => Sticks.bind (fun d => vkeep_when (fun x => vkeep_setProp _ _ _) _) fun _ => st1
      have st3 : ∀ us, Sticks (M.bind (Heap.getBase a) fun b => M.bind (whenSome b.facetDefs fun i' => Heap.setProp i' kp.1 { kp.2 with base := us }) fun _ =>
        unwrapFacetDefs rec a i n (k + 1)) := fun us => Sticks.bind (fun d => vkeep_getBase a) fun b => st2 us b
      have st4 : ∀ us j, Sticks (M.bind (Heap.updBase us fun y => { y with facetDefs := some j })
        fun _ => M.bind (Heap.getBase a) fun b => M.bind (whenSome b.facetDefs fun i' => Heap.setProp i' kp.1 { kp.2 with base := us }) fun _ =>
        unwrapFacetDefs rec a i n (k + 1)) := fun us j => Sticks.bind (fun d => vkeep_upd fun _ h => h) fun _ => st3 us
      refine Go.bind (hr.out hw (hw.1.propsOf (List.mem_of_getElem? hk))) (fun us => Sticks.bind (Sticks.heap fun _ => rfl) fun j => st4 us j) fun us s1 hw1 g1 q1 => ?_
      refine Go.bind (Go.of hc hw1 (Ok.newProps hw1.1 fun _ h => by cases h)) (fun j => st4 us j) fun j s2 hw2 g2 q2 => ?_
      refine Go.bind (Go.upd hw2 q1 (fun b hb sh hs => hw2.1.base us b sh hb hs) (Rk.upd fun _ _ h => ⟨h, fun _ x hx => by cases hx; exact q2⟩)) (fun _ => st3 us)
        fun _ s3 hw3 g3 _ => ?_
      have ha3 := ha.next (g1.trans (g2.trans g3))
      refine Go.bind (Go.getBase hw3) (fun b => st2 us b) fun b s4 hw4 g4 q4 => ?_
      obtain ⟨rfl, hb⟩ := q4
      obtain ⟨_, b', hb', hub', hf'⟩ := ha3
      rw [hb] at hb'; cases hb'
      refine Go.bind (whenSome_go hw4 fun i' hi' => Go.of hc hw4 (Ok.setProp hw4.1 (hf' i' hi') q1)) (fun _ => st1) fun _ s5 hw5 g5 _ => ?_
      exact unwrapFacetDefs_go hw5 (Own.next ⟨ha.1, b, hb, hub', hf'⟩ g5)

end

theorem unwrapFinish_go (hc : Closed F rk) {n : Nat} {a : Addr} {o : Option Addr} {s : St} (hw : All F s) (ha : ¬ F.D a) : Go F (unwrapFinish n a o) s fun r _ => ¬ F.D r := by
  refine Go.bind (Q := fun r _ => ¬ F.D r) ?_ (fun r => Sticks.bind (Sticks.heap fun _ => rfl) fun _ d => vkeep_ret _) fun r s1 hw1 g1 q1 => ?_
  · cases o with
    | none => exact Go.ret hw ha
    | some x => exact inherit_go hc hw ha
  · exact Go.bind (Go.putShape hw1) (fun _ d => vkeep_ret _) fun _ s2 hw2 g2 _ => Go.ret hw2 q1

theorem aliasShape_out {t u r : Shape} (hu : ShapeOut F u) (h : aliasShape t u = .ok r) : ShapeOut F r := by
  unfold aliasShape at h
  split at h
  all_goals
    first
    | (cases h; exact hu)
    | (cases h; exact trivial)
    | (cases h; done)

theorem aliasTo_touch {a x r : Addr} {s s' : St} (hw : Inv F s) (h : aliasTo a x s = (.ok r, s')) :
    r = a ∧ Touch a s s' ∧ ∀ b sh, s'.base a = some b → b.shape = some sh → ShapeOut F sh := by
  unfold aliasTo at h
  replace h := M.bind_ok.1 h; obtain ⟨t, s1, h1, h⟩ := h
  replace h := M.bind_ok.1 h; obtain ⟨u, s2, h2, h⟩ := h
  replace h := M.bind_ok.1 h; obtain ⟨sh, s3, h3, h⟩ := h
  unfold Heap.getShape at h1 h2
  split at h1 <;> cases h1
  split at h2 <;> cases h2
  rename_i hsu
  cases hl : aliasShape t u with
  | ok r2 =>
    rw [hl] at h3
    cases h3
    unfold setShape at h
    rw [M.bind_of_ok (upd_run _ _ _)] at h
    replace h := M.bind_ok.1 h; obtain ⟨c, s4, h4, h⟩ := h
    unfold Heap.getBase at h4
    split at h4 <;> cases h4
    rw [M.bind_of_ok (upd_run _ _ _)] at h
    cases h
    refine ⟨rfl, (Touch.upd a _ _).trans (Touch.upd a _ _), fun b sh' hb hs => ?_⟩
    rw [base_upd, base_upd] at hb
    cases hb0 : s.base a with
    | none => rw [hb0] at hb; cases hb
    | some b0 =>
      rw [hb0] at hb
      simp only [Option.map_some, if_true, Option.some.injEq] at hb
      subst hb
      cases hs
      exact aliasShape_out (hw.shapeAt hsu) hl
  | err e => rw [hl] at h3; cases h3
  | panic e => rw [hl] at h3; cases h3
  | diverge => rw [hl] at h3; cases h3

theorem unwrap_go (hc : Closed F rk) : ∀ n, URec F (unwrap n)
  | 0 => fun _ _ _ => Go.diverge
  | n + 1 => fun a s hw => by
    have hr := unwrap_go hc n
    have hv : ∀ a, Sticks (unwrap n a) := fun a d => vkeep_unwrap d n a
    by_cases ha : F.D a
    · intro r s' h _
      obtain ⟨rfl, f, D⟩ := unwrap_member hc (n + 1) a s r s' ha hw.1 (fun x hx _ => hw.2 x hx) h
      refine ⟨⟨hw.1.fr hc f, fun x hx => ?_⟩, fun x b hx hb hu => ⟨b, (f.out x (.inl hx)).trans hb, hu, id⟩, fun _ => ⟨rfl, f.slices⟩, fun h => absurd ha h⟩
      rcases f.mem x hx with h | h
      · exact (hw.2 x hx).same h
      · exact .inr h
    · suffices hgo : Go F (unwrap (n + 1) a) s fun r _ => ¬ F.D r from fun x s' h hcalm =>
        ⟨(hgo x s' h hcalm).1, (hgo x s' h hcalm).2.1, fun h => absurd h ha, fun _ => (hgo x s' h hcalm).2.2⟩
      refine Go.bind (Go.getBase hw) (fun b d => ?_) fun b s0 hw0 g0 q0 => ?_
      · split
        · exact vkeep_err _
        · split
          · exact vkeep_ret _
          · refine Keeps.bind VKeep.tr (vkeep_upd (by intro _ h; exact h)) fun _ => ?_
            split
            · exact Keeps.bind VKeep.tr (hv _ d) fun _ => Keeps.bind VKeep.tr (fun _ => vkeep_bases rfl) fun _ => vkeep_aliasTo _ _
            · exact Keeps.bind VKeep.tr (vkeep_unwrapParents (fun a => hv a d) _ _) fun _ => Keeps.bind VKeep.tr (vkeep_unwrapTarget (fun a => hv a d) _ _) fun _ =>
                Keeps.bind VKeep.tr (vkeep_getBase _) fun _ => Keeps.bind VKeep.tr (vkeep_when (fun i => vkeep_unwrapFacetDefs (fun a => hv a d) _ _ _ _) _) fun _ => vkeep_unwrapFinish _ _ _
      obtain ⟨rfl, hb⟩ := q0
      cases hs : b.shape with
      | none => exact Go.err
      | some sh =>
        simp only
        split
        · exact Go.ret hw ha
        · rename_i hun
          have stF : ∀ o, Sticks (unwrapFinish n a o) := fun o d => vkeep_unwrapFinish _ _ _
          have stD : ∀ (b' : Base) o, Sticks (M.bind (whenSome b'.facetDefs fun i => unwrapFacetDefs (unwrap n) a i n 0) fun _ => unwrapFinish n a o) := fun b' o =>
            Sticks.bind (fun d => vkeep_when (fun i => vkeep_unwrapFacetDefs (fun a => hv a d) _ _ _ _) _) fun _ => stF o
          have stG : ∀ o, Sticks (M.bind (Heap.getBase a) fun b' => M.bind (whenSome b'.facetDefs fun i => unwrapFacetDefs (unwrap n) a i n 0) fun _ => unwrapFinish n a o) :=
            fun o => Sticks.bind (fun d => vkeep_getBase _) fun b' => stD b' o
          have stT : ∀ o, Sticks (M.bind (unwrapTarget (unwrap n) n a) fun _ => M.bind (Heap.getBase a) fun b' =>
            M.bind (whenSome b'.facetDefs fun i => unwrapFacetDefs (unwrap n) a i n 0) fun _ => unwrapFinish n a o) :=
            fun o => Sticks.bind (fun d => vkeep_unwrapTarget (fun a => hv a d) _ _) fun _ => stG o
          cases hal : b.alias with
          | some t =>
            intro r s' h hcalm
            rw [M.bind_of_ok (upd_run _ _ _)] at h
            have hw1 : All F { s0 with bases := s0.bases.modify a fun y => { y with unwrapped := true } } :=
              hw.next (hw.1.upd fun b hb sh hs => hw.1.base a b sh hb hs) fun d hd => base_upd_ne (by rintro rfl; exact ha hd)
            have tch1 := Touch.upd a (fun y => { y with unwrapped := true }) s0
            generalize ({ s0 with bases := s0.bases.modify a fun y => { y with unwrapped := true } } : St) = s1 at h hw1 tch1
            simp only at h
            replace h := M.bind_ok.1 h; obtain ⟨us, s2, h2, h⟩ := h
            replace h := M.bind_ok.1 h; obtain ⟨_, s3, h3, h⟩ := h
            cases h3
            have hc3 := Calm.before (F := F) (fun d => vkeep_aliasTo (b := d) a us) (by rw [h]; exact hcalm)
            obtain ⟨hw2, g2, _⟩ := hr t s1 hw1 us s2 h2 hc3
            have hw3 : All F { s2 with shapes := s2.shapes ++ [a] } := hw2.next hw2.1.putShape fun _ _ => rfl
            obtain ⟨rfl, tch, hsh⟩ := aliasTo_touch hw3.1 h
            refine ⟨hw3.next ?_ fun d hd => tch.others d (by rintro rfl; exact ha hd), fun x bx hx hbx hux => ?_, ha⟩
            · refine hw3.1.grow (by rw [tch.len]) (fun y c hy => ?_) (fun m hm => .inl (tch.pmaps ▸ hm)) (fun _ _ => by rw [tch.pmaps]) (fun m hm => .inl (tch.ppmaps ▸ hm))
                (slices_same tch.slices) (by rw [tch.dts])
              by_cases hyr : y = r
              · subst hyr; exact .inr fun sh hs => hsh c sh hy hs
              · exact .inl (by rw [← tch.others y hyr]; exact hy)
            · have hxr : x ≠ r := by rintro rfl; rw [hb] at hbx; cases hbx; exact hun hux
              obtain ⟨b2, k1, k2, k3⟩ := g2 x bx hx ((tch1.others x hxr).trans hbx) hux
              exact ⟨b2, (tch.others x hxr).trans k1, k2, k3⟩
          | none =>
            refine Go.bind (Go.upd (f := fun y => { y with unwrapped := true }) hw ha (fun b hb sh hs => hw.1.base a b sh hb hs) (Rk.upd fun _ _ _ => ⟨rfl, id⟩)) (fun _ =>
              Sticks.bind (fun d => vkeep_unwrapParents (fun a => hv a d) _ _) fun o => stT o) fun _ s1 hw1 g1 q1 => ?_
            have hb1 : s1.base a = some { b with unwrapped := true } := by rw [q1]; exact base_upd_self hb
            refine Go.bind (unwrapParents_go hc hr hv hw1 ha) (fun o => stT o) fun o s2 hw2 g2 _ => ?_
            refine Go.bind (unwrapTarget_go hc hr hv hw2 ha) (fun _ => stG o) fun _ s3 hw3 g3 _ => ?_
            refine Go.bind (Go.getBase hw3) (fun b' => stD b' o) fun b' s4 hw4 g4 q4 => ?_
            obtain ⟨rfl, hb4⟩ := q4
            obtain ⟨b5, k1, k2, _⟩ := (g2.trans g3) a _ ha hb1 rfl
            rw [hb4] at k1; cases k1
            refine Go.bind (whenSome_go hw4 fun i hi => ?_) (fun _ => stF o) fun _ s5 hw5 g5 _ => unwrapFinish_go hc hw5 ha
            by_cases hE : F.E i
            · have hm : s4.props (some i) = [] := by unfold St.props; simp only; rw [hw4.1.empt i hE]; rfl
              cases n with
              | zero => exact Go.diverge
              | succ n => exact Go.congr (m := M.ret ()) (by simp only [unwrapFacetDefs, hm, List.getElem?_nil]; rfl) (Go.ret hw4 trivial)
            · exact unwrapFacetDefs_go hc hr hv hw4 ⟨ha, b', hb4, k2, fun j hj => by rw [hi] at hj; cases hj; exact hE⟩

end GoRaml.Kin
