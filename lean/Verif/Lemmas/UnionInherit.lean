import Verif.Lemmas.Required

/-! Union inheritance (C18). -/

namespace GoRaml

open Spec

/-! ## Structure of the result -/

section
variable {rec : Addr → Addr → M St Addr}

/-- The steps of one successful member: the clone of `t`, with a new ID, inherited from `s` and gave `m`. -/
def CameBy (rec : Addr → Addr → M St Addr) (s t m : Addr) : Prop :=
  ∃ h1 h2 h3 bs bt c id k, h1.base s = some bs ∧ h1.base t = some bt ∧ bs.type = bt.type ∧
    cloneDetached k t h1 = (.ok c, h2) ∧
    rec c s { h2 with idCounter := id, bases := h2.bases.modify c fun b => { b with id } } = (.ok m, h3)

theorem M.attempt_ok {σ α : Type} {m : M σ α} {s s' : σ} {r : Except String α} :
    M.attempt m s = (.ok r, s') ↔ (∃ a, r = .ok a ∧ m s = (.ok a, s')) ∨ ∃ e, r = .error e ∧ m s = (.err e, s') := by
  unfold M.attempt
  cases hm : m s with
  | mk o s1 => cases o <;> simp [eq_comm]

theorem getBase_ok {a : Addr} {b : Base} {h h' : St} : Heap.getBase a h = (.ok b, h') ↔ h.base a = some b ∧ h' = h := by
  unfold Heap.getBase
  cases h.base a <;> simp [eq_comm]

theorem inheritMember_ok {s : Addr} : ∀ {ts : List Addr} {h h' : St} {l : List Addr},
    inheritMember rec s ts h = (.ok l, h') → ∀ m ∈ l, ∃ t ∈ ts, CameBy rec s t m
  | [], h, h', l, hrun => by
    obtain ⟨rfl, rfl⟩ := M.ret_ok.1 hrun; simp
  | t :: ts, h, h', l, hrun => by
    unfold inheritMember at hrun
    obtain ⟨bs, h1, e1, hrun1⟩ := M.bind_ok.1 hrun
    obtain ⟨hbs, rfl⟩ := getBase_ok.1 e1
    obtain ⟨bt, h2, e2, hrun2⟩ := M.bind_ok.1 hrun1
    obtain ⟨hbt, rfl⟩ := getBase_ok.1 e2
    split at hrun2
    · rename_i htype
      obtain ⟨r, h3, e3, hrun3⟩ := M.bind_ok.1 hrun2
      obtain ⟨rest, h4, e4, hrun4⟩ := M.bind_ok.1 hrun3
      have ih := inheritMember_ok e4
      rcases M.attempt_ok.1 e3 with ⟨m0, rfl, hm0⟩ | ⟨e, rfl, _⟩
      · obtain ⟨rfl, rfl⟩ := M.ret_ok.1 hrun4
        intro m hm
        rcases List.mem_cons.1 hm with rfl | hm
        · refine ⟨t, by simp, ?_⟩
          unfold inheritClone at hm0
          rw [M.get_bind] at hm0
          obtain ⟨c, h5, e5, hm1⟩ := M.bind_ok.1 hm0
          obtain ⟨id, h6, e6, hm2⟩ := M.bind_ok.1 hm1
          obtain ⟨_, h7, e7, hm3⟩ := M.bind_ok.1 hm2
          simp only [Heap.newID, Prod.mk.injEq] at e6
          obtain ⟨hid, rfl⟩ := e6
          simp only [Heap.updBase, Prod.mk.injEq, true_and] at e7
          subst e7
          simp only [Out.ok.injEq] at hid
          exact ⟨h2, h5, h3, bs, bt, c, id, _, hbs, hbt, htype, e5, by rw [← hid] at hm3 ⊢; exact hm3⟩
        · obtain ⟨t', ht', hc⟩ := ih m hm
          exact ⟨t', List.mem_cons_of_mem _ ht', hc⟩
      · obtain ⟨rfl, rfl⟩ := M.ret_ok.1 hrun4
        intro m hm
        obtain ⟨t', ht', hc⟩ := ih m hm
        exact ⟨t', List.mem_cons_of_mem _ ht', hc⟩
    · intro m hm
      obtain ⟨t', ht', hc⟩ := inheritMember_ok hrun2 m hm
      exact ⟨t', List.mem_cons_of_mem _ ht', hc⟩

theorem inheritMembers_ok {ts : List Addr} : ∀ {ss : List Addr} {h h' : St} {l : List Addr},
    inheritMembers rec ts ss h = (.ok l, h') → ∃ groups : List (List Addr), l = groups.flatten ∧
      List.Forall₂ (fun s g => g ≠ [] ∧ ∀ m ∈ g, ∃ t ∈ ts, CameBy rec s t m) ss groups
  | [], h, h', l, hrun => by
    obtain ⟨rfl, rfl⟩ := M.ret_ok.1 hrun; exact ⟨[], rfl, .nil⟩
  | s :: ss, h, h', l, hrun => by
    unfold inheritMembers at hrun
    obtain ⟨fl, h1, e1, hrun1⟩ := M.bind_ok.1 hrun
    split at hrun1
    · simp [M.err] at hrun1
    · rename_i hne
      obtain ⟨rest, h2, e2, hrun2⟩ := M.bind_ok.1 hrun1
      obtain ⟨rfl, rfl⟩ := M.ret_ok.1 hrun2
      obtain ⟨gs, rfl, hgs⟩ := inheritMembers_ok e2
      refine ⟨fl :: gs, by simp, .cons ⟨?_, inheritMember_ok e1⟩ hgs⟩
      rintro rfl; simp at hne

end

/-! ## Values of the result: unions of scalars -/

/-- Nothing that existed changes its shape or its type name. -/
structure KeepShapes (h h' : St) : Prop where
  le : h.bases.length ≤ h'.bases.length
  shapes : ∀ x, x < h.bases.length → h'.shapeAt x = h.shapeAt x
  types : ∀ x, x < h.bases.length → (h'.base x).map (·.type) = (h.base x).map (·.type)

theorem KeepShapes.refl (h : St) : KeepShapes h h := ⟨le_refl _, fun _ _ => rfl, fun _ _ => rfl⟩

theorem KeepShapes.trans {a b c : St} (h1 : KeepShapes a b) (h2 : KeepShapes b c) : KeepShapes a c :=
  ⟨h1.le.trans h2.le, fun x hx => (h2.shapes x (lt_of_lt_of_le hx h1.le)).trans (h1.shapes x hx),
    fun x hx => (h2.types x (lt_of_lt_of_le hx h1.le)).trans (h1.types x hx)⟩

theorem lt_of_shapeAt {h : St} {x : Addr} {s : Shape} (hx : h.shapeAt x = some s) : x < h.bases.length := by
  by_contra hc
  simp [St.shapeAt, St.base, List.getElem?_eq_none (not_lt.1 hc)] at hx

theorem Cosmetic.types {h h' : St} (c : Cosmetic h h') (x : Addr) :
    (h'.base x).map (·.type) = (h.base x).map (·.type) := by
  cases hx : h.base x with
  | none => have := c.bases x; rw [hx] at this; simp at this; simp [this]
  | some b =>
    obtain ⟨b', hb', ht⟩ := c.type hx
    have := congrArg Base.type ht
    simpa [hb', Base.core] using this

theorem keepShapes_clone (n : Nat) (a : Addr) (h : St) : KeepShapes h (cloneDetached n a h).2 := by
  have hA := above_clone (lo := h.bases.length) n a ⟨h, []⟩ (le_refl _)
  simp only at hA
  have hb : ∀ x, x < h.bases.length → (cloneDetached n a h).2.base x = h.base x := fun x hx => hA.bases x hx
  exact ⟨hA.le, fun x hx => by simp only [St.shapeAt, hb x hx], fun x hx => by simp only [hb x hx]⟩

/-- A detached clone of a leaf is a new base with the same shape. -/
theorem clone_leaf {n : Nat} {a c : Addr} {h h' : St} {s : Shape} (hs : h.shapeAt a = some s) (hl : IsLeaf s)
    (hrun : cloneDetached n a h = (.ok c, h')) : c = h.bases.length ∧ h'.shapeAt c = some s := by
  cases n with
  | zero => simp [cloneDetached, clone, M.diverge] at hrun
  | succ n =>
    obtain ⟨b, hb, hb'⟩ := base_of_shape hs
    simp only [cloneDetached, Prod.mk.injEq] at hrun
    obtain ⟨hr1, hr2⟩ := hrun
    have hrun : clone (n + 1) a ⟨h, []⟩ = (.ok c, (clone (n + 1) a ⟨h, []⟩).2) := Prod.ext hr1 rfl
    subst hr2
    generalize hT : (clone (n + 1) a ⟨h, []⟩).2 = T at hrun
    simp only [clone] at hrun
    rw [M.bind_of_ok (a := b) (s' := ⟨h, []⟩) (by simp [onHeap, Heap.getBase, hb]), M.get_bind] at hrun
    simp only [memoGet] at hrun
    rw [M.bind_of_ok (s' := { h := (Heap.newBase b h).2, memo := [] }) (show onHeap (Heap.newBase b) _ = (.ok h.bases.length, _) from rfl),
      M.bind_of_ok (s' := { h := (Heap.newBase b h).2, memo := [(b.id, h.bases.length)] })
        (show memoPut b.id h.bases.length _ = (.ok (), _) from rfl)] at hrun
    unfold cloneFill at hrun
    obtain ⟨fm, t1, e1, hrun1⟩ := M.bind_ok.1 hrun
    obtain ⟨fd, t2, e2, hrun2⟩ := M.bind_ok.1 hrun1
    obtain ⟨al, t3, e3, hrun3⟩ := M.bind_ok.1 hrun2
    obtain ⟨inh, t4, e4, hrun4⟩ := M.bind_ok.1 hrun3
    obtain ⟨lk, t5, e5, hrun5⟩ := M.bind_ok.1 hrun4
    simp only [hb'] at hrun5
    obtain ⟨sh', t6, e6, hrun6⟩ := M.bind_ok.1 hrun5
    obtain ⟨_, t7, e7, hrun7⟩ := M.bind_ok.1 hrun6
    obtain ⟨rfl, rfl⟩ := M.ret_ok.1 hrun7
    refine ⟨rfl, ?_⟩
    have hleaf : cloneShape (clone n) s = M.ret s := by cases s <;> first | rfl | exact hl.elim
    rw [hleaf] at e6
    obtain ⟨rfl, rfl⟩ := M.ret_ok.1 e6
    -- the new base survives until it is filled in
    have hr : ∀ x, Keeps (CAbove (h.bases.length + 1)) (clone n x) := fun x => above_clone n x
    have k : ∀ {α : Type} {m : M CSt α} {t t' : CSt} {o : Out α}, Keeps (CAbove (h.bases.length + 1)) m → m t = (o, t') →
        CAbove (h.bases.length + 1) t t' := by
      intro α m t t' o hk he; have := hk t; rw [he] at this; exact this
    have k1 := k (fun t => keeps_onHeap (above_newFacets _) t) e1
    have k2 := k (fun t => Keeps.bind CAbove.tr (above_cloneProps hr _) (fun ps => keeps_onHeap (above_newProps ps)) t) e2
    have k3 := k (keeps_opt CAbove.rfl' CAbove.tr hr _) e3
    have k4 := k (keeps_opt CAbove.rfl' CAbove.tr (fun i t =>
      Keeps.bind CAbove.tr (Keeps.collect CAbove.rfl' CAbove.tr hr _) (fun l => keeps_onHeap (above_newSlice l)) t) _) e4
    have k5 := k (keeps_opt CAbove.rfl' CAbove.tr (fun i t => by
      unfold cloneLink
      split
      · exact CAbove.rfl' t
      · split
        · exact CAbove.rfl' t
        · exact Keeps.bind CAbove.tr (hr _) (fun c => keeps_onHeap (above_newDT _)) t) _) e5
    have kk := (((Above.trans k1 k2).trans k3).trans k4).trans k5
    have hk := kk (by simp [Heap.newBase])
    have hlt : h.bases.length < t5.h.bases.length := lt_of_lt_of_le (by simp [Heap.newBase]) hk.le
    simp only [onHeap, Heap.updBase, Prod.mk.injEq, true_and] at e7
    subst e7
    simp only [St.shapeAt, St.base, List.getElem?_modify, if_true]
    rw [List.getElem?_eq_getElem hlt]
    rfl

/-- `Inherit` on a scalar target, for every outcome. -/
theorem inherit_scalar_step {n : Nat} {h h' : St} {a b : Addr} {o : Out Addr} {t s : Shape} (ha : h.shapeAt a = some t)
    (hb : h.shapeAt b = some s) (hlt : IsLeaf t) (hls : IsLeaf s) (hrun : inherit n a b h = (o, h')) :
    (h.bases.length ≤ h'.bases.length) ∧ (∀ x, x ≠ a → h'.shapeAt x = h.shapeAt x) ∧
    (∀ x, (h'.base x).map (·.type) = (h.base x).map (·.type)) ∧
    ∀ r, o = .ok r → (r = a ∧ ∃ q, h'.shapeAt a = some q ∧ (leafInherit t s = .ok q ∨ (s = .any ∧ q = t))) ∨
      (r = b ∧ h'.shapeAt a = some t) := by
  have cos : ∀ {h1}, Cosmetic h h1 → (∀ x, (h1.base x).map (·.type) = (h.base x).map (·.type)) := fun c x => c.types x
  have same : ∀ {h1}, Cosmetic h h1 → h1 = h' → (∀ r, o ≠ .ok r) → (h.bases.length ≤ h'.bases.length) ∧
      (∀ x, x ≠ a → h'.shapeAt x = h.shapeAt x) ∧ (∀ x, (h'.base x).map (·.type) = (h.base x).map (·.type)) ∧
      ∀ r, o = .ok r → (r = a ∧ ∃ q, h'.shapeAt a = some q ∧ (leafInherit t s = .ok q ∨ (s = .any ∧ q = t))) ∨
        (r = b ∧ h'.shapeAt a = some t) := by
    intro h1 c e hn
    subst e
    exact ⟨c.grown.bases, fun x _ => c.shapeAt x, cos c, fun r hr => absurd hr (hn r)⟩
  obtain ⟨ba, hba, hba'⟩ := base_of_shape ha
  obtain ⟨bb, hbb, hbb'⟩ := base_of_shape hb
  cases n with
  | zero =>
    simp only [inherit, M.diverge, Prod.mk.injEq] at hrun
    exact same (Cosmetic.refl h) hrun.2 (by rw [← hrun.1]; simp)
  | succ n =>
    cases hv : bb.visited with
    | true =>
      simp only [inherit] at hrun
      rw [M.bind_of_ok (show Heap.getBase a h = (.ok ba, h) by simp [Heap.getBase, hba]),
        M.bind_of_ok (show Heap.getBase b h = (.ok bb, h) by simp [Heap.getBase, hbb])] at hrun
      simp only [hv, if_true, M.ret, Prod.mk.injEq] at hrun
      obtain ⟨rfl, rfl⟩ := hrun
      exact ⟨le_refl _, fun _ _ => rfl, fun _ => rfl, fun r hr => .inr ⟨by simpa using hr.symm, ha⟩⟩
    | false =>
      obtain ⟨h1, c, hvis, hr0⟩ := inherit_prelude hba hbb hv n
      rw [hr0] at hrun
      have hda : h1.shapeAt a = some t := by rw [c.shapeAt, ha]
      have hdb : h1.shapeAt b = some s := by rw [c.shapeAt, hb]
      obtain ⟨b1, hb1, hb1'⟩ := base_of_shape hda
      obtain ⟨b2, hb2, hb2'⟩ := base_of_shape hdb
      unfold inheritDispatch at hrun
      rw [M.bind_of_ok (show Heap.getBase a h1 = (.ok b1, h1) by simp [Heap.getBase, hb1]),
        M.bind_of_ok (show Heap.getBase b h1 = (.ok b2, h1) by simp [Heap.getBase, hb2]), hb1', hb2'] at hrun
      by_cases hany : s = .any
      · subst hany
        simp only [M.ret, Prod.mk.injEq] at hrun
        obtain ⟨rfl, rfl⟩ := hrun
        exact ⟨c.grown.bases, fun x _ => c.shapeAt x, cos c,
          fun r hr => .inl ⟨by simpa using hr.symm, t, hda, .inr ⟨rfl, rfl⟩⟩⟩
      · have hdisp : (M.bind (M.bind (M.lift (leafInherit t s)) fun r => setShape a r) fun _ =>
            M.bind (Heap.updBase b fun x => { x with visited := false }) fun _ => M.ret a) h1 = (o, h') := by
          rw [← hrun]
          cases t <;> simp only [IsLeaf] at hlt <;> cases s <;> first | rfl | exact absurd rfl hany | exact hls.elim
        cases hl : leafInherit t s with
        | ok q =>
          rw [hl] at hdisp
          have e2 : (M.bind (M.lift (.ok q)) fun r => setShape a r) h1 = (.ok (), (setShape a q h1).2) := rfl
          rw [M.bind_of_ok e2] at hdisp
          have put := setShape_put hda (show setShape a q h1 = (.ok (), (setShape a q h1).2) from rfl)
          have e3 : Heap.updBase b (fun x => { x with visited := false }) (setShape a q h1).2 = (.ok (), _) := rfl
          rw [M.bind_of_ok e3] at hdisp
          simp only [M.ret, Prod.mk.injEq] at hdisp
          obtain ⟨rfl, rfl⟩ := hdisp
          have c2 := Cosmetic.upd (h := (setShape a q h1).2) b (fun x => { x with visited := false }) (fun _ => rfl)
          refine ⟨?_, fun x hx => ?_, fun x => ?_, fun r hr => .inl ⟨by simpa using hr.symm, q, ?_, .inl rfl⟩⟩
          · have := c.grown.bases
            simpa [setShape, Heap.updBase] using this
          · exact (c2.shapeAt x).trans ((put.other hx).trans (c.shapeAt x))
          · rw [← cos c x]
            simp only [setShape, Heap.updBase, St.base, List.getElem?_modify]
            cases h1.bases[x]? with
            | none => rfl
            | some y => simp only [Option.map_eq_map, Option.map_some]; split <;> split <;> rfl
          · exact (c2.shapeAt a).trans put.shape
        | err m =>
          rw [hl] at hdisp
          simp only [M.bind, M.lift, Prod.mk.injEq] at hdisp
          have := same c hdisp.2 (by rw [← hdisp.1]; simp)
          rwa [hl] at this
        | panic m =>
          rw [hl] at hdisp
          simp only [M.bind, M.lift, Prod.mk.injEq] at hdisp
          have := same c hdisp.2 (by rw [← hdisp.1]; simp)
          rwa [hl] at this
        | diverge =>
          rw [hl] at hdisp
          simp only [M.bind, M.lift, Prod.mk.injEq] at hdisp
          have := same c hdisp.2 (by rw [← hdisp.1]; simp)
          rwa [hl] at this

/-- One level of membership depends on the shape only, for leaf shapes. -/
theorem leaf_valid {E : Ext} {h h' : St} {x y : Addr} {s : Shape} (hx : h.shapeAt x = some s) (hy : h'.shapeAt y = some s)
    (hl : IsLeaf s) (v : GoVal) : Valid E h x v ↔ Valid E h' y v := by
  rw [valid_iff_step, valid_iff_step]
  unfold Step
  rw [hx, hy]
  cases s <;> first | exact Iff.rfl | exact hl.elim

/-- The result of a member: its shape, and that it narrows the parent member `s`. -/
structure GoodMember (E : Ext) (s : Shape) (h : St) (m : Addr) : Prop where
  narrow : ∃ q, h.shapeAt m = some q ∧ IsLeaf q ∧ ∀ h1 h2 x y, h1.shapeAt x = some q → h2.shapeAt y = some s →
    ∀ v, Valid E h1 x v → Valid E h2 y v

theorem GoodMember.mono {E : Ext} {s : Shape} {h h' : St} {m : Addr} (g : GoodMember E s h m) (k : KeepShapes h h') :
    GoodMember E s h' m := by
  obtain ⟨q, hq, hl, hn⟩ := g.narrow
  exact ⟨q, by rw [k.shapes m (lt_of_shapeAt hq), hq], hl, hn⟩

theorem inheritClone_scalar {E : Ext} {n : Nat} {h h' : St} {t s : Addr} {ts ss : Shape} {o : Out Addr}
    (ht : h.shapeAt t = some ts) (hs : h.shapeAt s = some ss) (hlt : IsLeaf ts) (hls : IsLeaf ss) (hn : ScalarNarrows ts ss)
    (hrun : inheritClone (inherit n) t s h = (o, h')) :
    KeepShapes h h' ∧ ∀ m, o = .ok m → GoodMember E ss h' m := by
  unfold inheritClone at hrun
  rw [M.get_bind] at hrun
  have kc := keepShapes_clone (h.bases.length + 1) t h
  cases hc : cloneDetached (h.bases.length + 1) t h with
  | mk oc h1 =>
    rw [hc] at kc
    cases oc with
    | ok c =>
      rw [M.bind_of_ok hc] at hrun
      obtain ⟨hcl, hcs⟩ := clone_leaf ht hlt hc
      rw [M.bind_of_ok (show Heap.newID h1 = (.ok (h1.idCounter + 1), { h1 with idCounter := h1.idCounter + 1 }) from rfl)] at hrun
      rw [M.bind_of_ok (a := ()) (show Heap.updBase c _ _ = (.ok (), _) from rfl)] at hrun
      set h2 : St := { h1 with idCounter := h1.idCounter + 1, bases := h1.bases.modify c fun b => { b with id := h1.idCounter + 1 } } with hh2
      have hb2 : ∀ x, h2.base x = (h1.base x).map fun b => if c = x then { b with id := h1.idCounter + 1 } else b :=
        fun x => base_upd h1 c x _
      have hs2 : ∀ x, h2.shapeAt x = h1.shapeAt x := by
        intro x
        simp only [St.shapeAt, hb2]
        cases h1.base x with
        | none => rfl
        | some b => simp only [Option.map_some, Option.bind_some]; split <;> rfl
      have k2 : KeepShapes h h2 := by
        refine kc.trans ⟨by simp [hh2], fun x _ => hs2 x, fun x _ => ?_⟩
        rw [hb2]
        cases h1.base x with
        | none => rfl
        | some b => simp only [Option.map_some]; split <;> rfl
      have hsl := lt_of_shapeAt hs
      obtain ⟨hle, hsh, hty, hok⟩ := inherit_scalar_step (t := ts) (s := ss) (by rw [hs2, hcs])
        (by rw [k2.shapes s hsl, hs]) hlt hls hrun
      have hcn : ∀ x, x < h.bases.length → x ≠ c := by intro x hx e; rw [e, hcl] at hx; exact lt_irrefl _ hx
      refine ⟨⟨k2.le.trans hle, fun x hx => (hsh x (hcn x hx)).trans (k2.shapes x hx),
        fun x hx => (hty x).trans (k2.types x hx)⟩, fun m hm => ?_⟩
      have hany : ∀ h2 y, h2.shapeAt y = some .any → ∀ v, Valid E h2 y v := by
        intro h2 y hy v; rw [valid_iff_step]; unfold Step; rw [hy]; trivial
      rcases hok m hm with ⟨rfl, q, hq, hor⟩ | ⟨rfl, _⟩
      · refine ⟨q, hq, ?_, fun h1 h2 x y hx hy v hv => ?_⟩
        · rcases hor with hl | ⟨_, rfl⟩
          · exact (leaf_result hl hn).1
          · exact hlt
        · rcases hor with hl | ⟨rfl, rfl⟩
          · rw [valid_iff_step] at hv ⊢
            exact leaf_step_narrow hl hn hy hx hv
          · exact hany _ _ hy v
      · refine ⟨ss, ?_, hls, fun h1 h2 x y hx hy v hv => (leaf_valid hx hy hls v).1 hv⟩
        rw [hsh m (hcn m hsl), k2.shapes m hsl, hs]
    | err e =>
      simp only [M.bind, hc, Prod.mk.injEq] at hrun
      obtain ⟨rfl, rfl⟩ := hrun
      exact ⟨kc, by simp⟩
    | panic e =>
      simp only [M.bind, hc, Prod.mk.injEq] at hrun
      obtain ⟨rfl, rfl⟩ := hrun
      exact ⟨kc, by simp⟩
    | diverge =>
      simp only [M.bind, hc, Prod.mk.injEq] at hrun
      obtain ⟨rfl, rfl⟩ := hrun
      exact ⟨kc, by simp⟩

/-- Members are scalars, and same-named pairs can only narrow. -/
def ScalarMembers (h : St) (ts ss : List Addr) : Prop :=
  (∀ x ∈ ts ++ ss, ∃ q, h.shapeAt x = some q ∧ IsLeaf q) ∧
  ∀ t ∈ ts, ∀ s ∈ ss, ∀ bt bs qt qs, h.base t = some bt → h.base s = some bs → bs.type = bt.type →
    bt.shape = some qt → bs.shape = some qs → ScalarNarrows qt qs

theorem ScalarMembers.mono {h h' : St} {ts ss : List Addr} (hm : ScalarMembers h ts ss) (k : KeepShapes h h') :
    ScalarMembers h' ts ss := by
  refine ⟨fun x hx => ?_, fun t ht s hs bt bs qt qs hbt hbs hty hqt hqs => ?_⟩
  · obtain ⟨q, hq, hl⟩ := hm.1 x hx
    exact ⟨q, by rw [k.shapes x (lt_of_shapeAt hq), hq], hl⟩
  · obtain ⟨q, hq, _⟩ := hm.1 t (List.mem_append_left _ ht)
    obtain ⟨q', hq', _⟩ := hm.1 s (List.mem_append_right _ hs)
    obtain ⟨b1, hb1, hb1'⟩ := base_of_shape hq
    obtain ⟨b2, hb2, hb2'⟩ := base_of_shape hq'
    have s1 := k.shapes t (lt_of_shapeAt hq)
    have s2 := k.shapes s (lt_of_shapeAt hq')
    have t1 := k.types t (lt_of_shapeAt hq)
    have t2 := k.types s (lt_of_shapeAt hq')
    simp only [St.shapeAt, hb1, hb2, hbt, hbs, Option.bind_some, Option.map_some, Option.some.injEq] at s1 s2 t1 t2
    exact hm.2 t ht s hs b1 b2 qt qs hb1 hb2 (by rw [← t1, ← t2, hty]) (by rw [← s1, hqt]) (by rw [← s2, hqs])

theorem inheritMember_scalar {E : Ext} {n : Nat} {s : Addr} {ss : Shape} : ∀ {ts : List Addr} {h h' : St} {l : List Addr},
    ScalarMembers h ts [s] → h.shapeAt s = some ss → inheritMember (inherit n) s ts h = (.ok l, h') →
    KeepShapes h h' ∧ ∀ m ∈ l, GoodMember E ss h' m
  | [], h, h', l, _, _, hrun => by
    obtain ⟨rfl, rfl⟩ := M.ret_ok.1 hrun; exact ⟨KeepShapes.refl _, by simp⟩
  | t :: ts, h, h', l, hm, hs, hrun => by
    have hm' : ScalarMembers h ts [s] := ⟨fun x hx => hm.1 x (by simp at hx ⊢; tauto),
      fun t' ht' => hm.2 t' (List.mem_cons_of_mem _ ht')⟩
    unfold inheritMember at hrun
    obtain ⟨bs, h1, e1, hrun1⟩ := M.bind_ok.1 hrun
    obtain ⟨hbs, rfl⟩ := getBase_ok.1 e1
    obtain ⟨bt, h2, e2, hrun2⟩ := M.bind_ok.1 hrun1
    obtain ⟨hbt, rfl⟩ := getBase_ok.1 e2
    split at hrun2
    · rename_i htype
      obtain ⟨r, h3, e3, hrun3⟩ := M.bind_ok.1 hrun2
      obtain ⟨rest, h4, e4, hrun4⟩ := M.bind_ok.1 hrun3
      obtain ⟨qt, hqt, hlt⟩ := hm.1 t (by simp)
      obtain ⟨qs, hqs, hls⟩ := hm.1 s (by simp)
      rw [hs] at hqs; cases hqs
      have hn : ScalarNarrows qt ss := by
        refine hm.2 t (by simp) s (by simp) bt bs qt ss hbt hbs htype ?_ ?_
        · simpa [St.shapeAt, hbt] using hqt
        · simpa [St.shapeAt, hbs] using hs
      have step : ∀ {o : Out Addr}, inheritClone (inherit n) t s h2 = (o, h3) → KeepShapes h2 h3 ∧
          ∀ m, o = .ok m → GoodMember E ss h3 m := fun he => inheritClone_scalar hqt hs hlt hls hn he
      rcases M.attempt_ok.1 e3 with ⟨m0, rfl, hm0⟩ | ⟨e, rfl, he⟩
      · obtain ⟨k1, g1⟩ := step hm0
        obtain ⟨k2, g2⟩ := inheritMember_scalar (hm'.mono k1) (by rw [k1.shapes s (lt_of_shapeAt hs), hs]) e4
        obtain ⟨rfl, rfl⟩ := M.ret_ok.1 hrun4
        refine ⟨k1.trans k2, fun m hm => ?_⟩
        rcases List.mem_cons.1 hm with rfl | hm
        · exact (g1 m rfl).mono k2
        · exact g2 m hm
      · obtain ⟨k1, g1⟩ := step he
        obtain ⟨k2, g2⟩ := inheritMember_scalar (hm'.mono k1) (by rw [k1.shapes s (lt_of_shapeAt hs), hs]) e4
        obtain ⟨rfl, rfl⟩ := M.ret_ok.1 hrun4
        exact ⟨k1.trans k2, g2⟩
    · exact inheritMember_scalar hm' hs hrun2

theorem inheritMembers_scalar {E : Ext} {n : Nat} {ts : List Addr} : ∀ {ss : List Addr} {h h' : St} {l : List Addr},
    ScalarMembers h ts ss → inheritMembers (inherit n) ts ss h = (.ok l, h') →
    KeepShapes h h' ∧ ∀ m ∈ l, ∃ s ∈ ss, ∃ q, h.shapeAt s = some q ∧ GoodMember E q h' m
  | [], h, h', l, _, hrun => by
    obtain ⟨rfl, rfl⟩ := M.ret_ok.1 hrun; exact ⟨KeepShapes.refl _, by simp⟩
  | s :: ss, h, h', l, hm, hrun => by
    have h1' : ScalarMembers h ts [s] := ⟨fun x hx => hm.1 x (by simp at hx ⊢; tauto),
      fun t ht s' hs' => hm.2 t ht s' (by simp at hs'; simp [hs'])⟩
    have h2' : ScalarMembers h ts ss := ⟨fun x hx => hm.1 x (by simp at hx ⊢; tauto),
      fun t ht s' hs' => hm.2 t ht s' (List.mem_cons_of_mem _ hs')⟩
    obtain ⟨q, hq, _⟩ := hm.1 s (by simp)
    unfold inheritMembers at hrun
    obtain ⟨fl, h1, e1, hrun1⟩ := M.bind_ok.1 hrun
    obtain ⟨k1, g1⟩ := inheritMember_scalar (E := E) h1' hq e1
    split at hrun1
    · simp [M.err] at hrun1
    · obtain ⟨rest, h2, e2, hrun2⟩ := M.bind_ok.1 hrun1
      obtain ⟨rfl, rfl⟩ := M.ret_ok.1 hrun2
      obtain ⟨k2, g2⟩ := inheritMembers_scalar (E := E) (h2'.mono k1) e2
      refine ⟨k1.trans k2, fun m hm' => ?_⟩
      rcases List.mem_append.1 hm' with h3 | h3
      · exact ⟨s, by simp, q, hq, (g1 m h3).mono k2⟩
      · obtain ⟨s', hs', q', hq', g'⟩ := g2 m h3
        obtain ⟨q0, hq0, _⟩ := h2'.1 s' (List.mem_append_right _ hs')
        refine ⟨s', List.mem_cons_of_mem _ hs', q', ?_, g'⟩
        rw [← hq', k1.shapes s' (lt_of_shapeAt hq0)]

end GoRaml
