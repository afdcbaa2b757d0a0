import Verif.Lemmas.Narrow

/-! Inheritance on the heap narrows (C16): the induction. -/

namespace GoRaml

open Spec

/-- `h'` is `h` with the shape at `a` replaced by `s`. -/
structure Put (a : Addr) (s : Shape) (h h' : St) : Prop where
  agree : Agree (fun l => l ≠ .base a) h h'
  shape : h'.shapeAt a = some s
  visited : ∀ x, visitedAt h' x = visitedAt h x
  pmaps : h'.pmaps = h.pmaps
  ppmaps : h'.ppmaps = h.ppmaps

theorem setShape_put {a : Addr} {s s0 : Shape} {h h' : St} {u : Unit} (hs : h.shapeAt a = some s0)
    (hr : setShape a s h = (.ok u, h')) : Put a s h h' := by
  simp only [setShape, Heap.updBase, Prod.mk.injEq, true_and] at hr
  subst hr
  obtain ⟨b, hb, _⟩ := base_of_shape hs
  refine ⟨⟨fun x hx => ?_, fun _ _ => rfl, fun _ _ => rfl, rfl⟩, ?_, fun x => ?_, rfl, rfl⟩
  · rw [base_upd]
    have : ¬ a = x := fun h => hx (by rw [h])
    simp [this]
  · simp only [St.shapeAt, base_upd, hb]; simp
  · exact visitedAt_upd h a x _ (fun b => rfl)

theorem setArray_eq {a : Addr} {f f0 : ArrayF} {h : St} (hs : h.shapeAt a = some (.array f0)) :
    setArray a f h = setShape a (.array f) h := by
  obtain ⟨b, hb, hb'⟩ := base_of_shape hs
  simp only [setArray, setShape, Heap.updBase, Prod.mk.injEq, true_and]
  congr 1
  refine List.ext_getElem? fun i => ?_
  simp only [List.getElem?_modify]
  by_cases hi : a = i
  · subst hi
    rw [show h.bases[a]? = some b from hb]
    simp [hb']
  · simp [hi]

theorem setObject_eq {a : Addr} {f f0 : ObjectF} {h : St} (hs : h.shapeAt a = some (.object f0)) :
    setObject a f h = setShape a (.object f) h := by
  obtain ⟨b, hb, hb'⟩ := base_of_shape hs
  simp only [setObject, setShape, Heap.updBase, Prod.mk.injEq, true_and]
  congr 1
  refine List.ext_getElem? fun i => ?_
  simp only [List.getElem?_modify]
  by_cases hi : a = i
  · subst hi
    rw [show h.bases[a]? = some b from hb]
    simp [hb']
  · simp [hi]

theorem Put.other {a : Addr} {s : Shape} {h h' : St} (p : Put a s h h') {x : Addr} (hx : x ≠ a) :
    h'.shapeAt x = h.shapeAt x := p.agree.shapeAt (by simpa using hx)

theorem Put.anys {a : Addr} {s : Shape} {h h' : St} (p : Put a s h h') (hs : s ≠ .any) (x : Addr)
    (hx : h'.shapeAt x = some .any) : h.shapeAt x = some .any := by
  by_cases h1 : x = a
  · subst h1; rw [p.shape] at hx; simp at hx; exact absurd hx hs
  · rwa [p.other h1] at hx

/-- The cells of a type that does not contain `a` are not affected. -/
theorem Put.part {a y : Addr} {s : Shape} {h h' : St} (p : Put a s h h') (hy : ¬ Part h y (.base a)) (l : Loc) :
    Part h' y l ↔ Part h y l :=
  part_of_agree (p.agree.mono fun l hl e => by subst e; exact hy hl) l

theorem Put.valid {E : Ext} {a y : Addr} {s : Shape} {h h' : St} (p : Put a s h h') (hy : ¬ Part h y (.base a)) (v : GoVal) :
    Valid E h' y v ↔ Valid E h y v :=
  valid_agree (p.agree.mono fun l hl e => by subst e; exact hy hl) v

/-- The skeleton of `Inherit` when neither side is a union and the source is not any. -/
theorem inherit_homog {a b : Addr} {h h' : St} {t s : Shape} {r : Addr} {n : Nat} (ha : h.shapeAt a = some t)
    (hb : h.shapeAt b = some s) (hv : visitedAt h b = some false) (ht2 : ∀ l e, t ≠ .union l e) (hs1 : s ≠ .any)
    (hs2 : ∀ l e, s ≠ .union l e) (hr : inherit (n + 1) a b h = (.ok r, h')) :
    r = a ∧ ∃ h1 h2, Cosmetic h h1 ∧ (∀ x, visitedAt h1 x = if x = b then some true else visitedAt h x) ∧
      inheritShape (inherit n) a b t s h1 = (.ok (), h2) ∧
      h' = { h2 with bases := h2.bases.modify b fun x => { x with visited := false } } := by
  obtain ⟨ba, hba, hba'⟩ := base_of_shape ha
  obtain ⟨bb, hbb, hbb'⟩ := base_of_shape hb
  obtain ⟨h1, c, hvis, hrun⟩ := inherit_prelude hba hbb (by simpa [visitedAt, hbb] using hv) n
  have hda : h1.shapeAt a = some t := by rw [c.shapeAt, ha]
  have hdb : h1.shapeAt b = some s := by rw [c.shapeAt, hb]
  obtain ⟨b1, hb1, hb1'⟩ := base_of_shape hda
  obtain ⟨b2, hb2, hb2'⟩ := base_of_shape hdb
  have hdisp : inheritDispatch (inherit n) a b h1 =
      (M.bind (inheritShape (inherit n) a b t s) fun _ =>
        M.bind (Heap.updBase b fun x => { x with visited := false }) fun _ => M.ret a) h1 := by
    unfold inheritDispatch
    rw [M.bind_of_ok (show Heap.getBase a h1 = (.ok b1, h1) by simp [Heap.getBase, hb1]),
      M.bind_of_ok (show Heap.getBase b h1 = (.ok b2, h1) by simp [Heap.getBase, hb2])]
    rw [hb1', hb2']
    cases t <;> cases s <;> first | rfl | exact absurd rfl hs1 | exact absurd rfl (hs2 _ _) | exact absurd rfl (ht2 _ _)
  rw [hrun, hdisp] at hr
  obtain ⟨u, h2, hr1, hr2⟩ := M.bind_ok.1 hr
  obtain ⟨u', h3, hr3, hr4⟩ := M.bind_ok.1 hr2
  obtain ⟨rfl, rfl⟩ := M.ret_ok.1 hr4
  simp only [Heap.updBase, Prod.mk.injEq, true_and] at hr3
  exact ⟨rfl, h1, h2, c, hvis, hr1, hr3.symm⟩

/-- The part of `Inherit` around `target.inherit(source)` does not matter. -/
theorem narrowed_wrap {E : Ext} {h h1 h2 h' : St} {a b : Addr} {s : Shape} (c : Cosmetic h h1)
    (hvis : ∀ x, visitedAt h1 x = if x = b then some true else visitedAt h x) (hb : h.shapeAt b = some s)
    (hap : Apart h a b) (hN : Narrowed E h1 h2 a b)
    (hh : h' = { h2 with bases := h2.bases.modify b fun x => { x with visited := false } }) : Narrowed E h h' a b := by
  have c' : Cosmetic h2 h' := by rw [hh]; exact Cosmetic.upd b _ (fun _ => rfl)
  have hp : ∀ y l, Part h1 y l ↔ Part h y l := fun y l => part_of_agree (c.agree _) l
  have frame : Agree (fun l => ¬ Part h a l) h h' :=
    ((c.agree _).trans (hN.frame.mono fun l hl => by rwa [hp])).trans (c'.agree _)
  refine ⟨frame, ?_, ?_, ?_, ?_, ?_⟩
  · rw [c'.ppmaps, hN.ppmaps, c.ppmaps]
  · intro x hx
    rw [c'.shapeAt] at hx
    have := hN.anys x hx
    rwa [c.shapeAt] at this
  · intro x hx hs
    by_cases hxb : x = b
    · subst hxb
      have h3 : h2.shapeAt x = some s := by
        rw [hN.frame.shapeAt, c.shapeAt, hb]
        rw [hp]; exact fun hl => hap _ hl (.self _)
      obtain ⟨y, hy, _⟩ := base_of_shape h3
      simp only [visitedAt, hh, base_upd, hy]; simp
    · have h3 := hN.idle x (by rw [hvis, if_neg hxb]; exact hx) (by rwa [c.shapeAt])
      have hxb' : ¬ b = x := fun h => hxb h.symm
      simp only [visitedAt, hh, base_upd] at h3 ⊢
      cases hbx : h2.base x <;> simp_all
  · have st := hN.stays
    have e : (fun l => Part h a l ∨ Part h b l) = (fun l => Part h1 a l ∨ Part h1 b l) := by
      funext l; rw [hp, hp]
    rw [e]
    exact st.change (T := fun _ => False) (c'.agree _) ⟨fun h => h.elim, fun h => h.elim, fun h => h.elim, fun h => h.elim,
      fun h => h.elim, fun h => h.elim, fun h => h.elim⟩ (fun _ h => h.elim)
  · intro v hv
    rw [valid_agree (c'.agree _)] at hv
    have := hN.valid v hv
    rwa [valid_agree (c.agree _)] at this

/-- What the nested calls guarantee. -/
def NarrowIH (E : Ext) (rec : Addr → Addr → M St Addr) : Prop :=
  ∀ h a b h' r, MayNarrow E.reMatch h a b → Apart h a b → rec a b h = (.ok r, h') → Narrowed E h h' a b

/-! ## Scalars -/

theorem leaf_result {t s r : Shape} (hl : leafInherit t s = .ok r) (hn : ScalarNarrows t s) :
    IsLeaf r ∧ (s ≠ .any → r ≠ .any) := by
  cases t <;> simp only [ScalarNarrows] at hn <;> cases s <;> simp [leafInherit] at hl <;>
    first
    | (subst hl; simp [IsLeaf]; done)
    | (obtain ⟨u, h1, h2⟩ := Out.bind_ok.1 hl; simp at h2; subst h2; simp [IsLeaf]; done)
    | (split at hl <;> simp at hl; subst hl; simp [IsLeaf]; done)

theorem scalar_shape_run (rec : Addr → Addr → M St Addr) (a b : Addr) {t s : Shape} (hn : ScalarNarrows t s) :
    inheritShape rec a b t s = M.bind (M.lift (leafInherit t s)) fun r => setShape a r := by
  cases t <;> simp only [ScalarNarrows] at hn <;> cases s <;> first | rfl | exact hn.elim

theorem scalar_core {E : Ext} {rec : Addr → Addr → M St Addr} {h h2 : St} {a b : Addr} {t s : Shape}
    (ha : h.shapeAt a = some t) (hb : h.shapeAt b = some s) (hs1 : s ≠ .any) (hn : ScalarNarrows t s)
    (hr : inheritShape rec a b t s h = (.ok (), h2)) : Narrowed E h h2 a b := by
  rw [scalar_shape_run rec a b hn] at hr
  obtain ⟨r, h1, hr1, hr2⟩ := M.bind_ok.1 hr
  simp only [M.lift, Prod.mk.injEq] at hr1
  obtain ⟨hl, rfl⟩ := hr1
  have put := setShape_put ha hr2
  obtain ⟨hleaf, hany⟩ := leaf_result hl hn
  refine ⟨put.agree.mono (fun l hl e => hl (by rw [e]; exact .self _)), put.ppmaps, put.anys (hany hs1), ?_, ?_, ?_⟩
  · intro x hx _; rw [put.visited]; exact hx
  · refine ((stays_part h a).union (stays_part h b)).setBase put.agree ?_ ?_ ?_ ?_ ?_
    · intro f i hx; rw [put.shape] at hx; simp at hx; subst hx; exact hleaf.elim
    · intro f i hx; rw [put.shape] at hx; simp at hx; subst hx; exact hleaf.elim
    · intro f i hx; rw [put.shape] at hx; simp at hx; subst hx; exact hleaf.elim
    · intro f i hx; rw [put.shape] at hx; simp at hx; subst hx; exact hleaf.elim
    · intro i hx; rw [put.shape] at hx; simp at hx; subst hx; exact hleaf.elim
  · intro v hv
    rw [valid_iff_step] at hv ⊢
    exact leaf_step_narrow hl hn hb put.shape hv

/-! ## Arrays -/

theorem arrayAt_eq {h : St} {a : Addr} {f : ArrayF} (hs : h.shapeAt a = some (.array f)) : arrayAt h a = f := by
  simp [arrayAt, hs]

theorem array_second {h h2 : St} {a b : Addr} {f g : ArrayF} (ha : h.shapeAt a = some (.array f))
    (hb : h.shapeAt b = some (.array g))
    (hr : (M.bind M.get fun h => M.bind (M.lift ((arrayAt h a).inheritBounds (arrayAt h b))) fun f => setArray a f) h =
      (.ok (), h2)) : ∃ r, f.inheritBounds g = .ok r ∧ Put a (.array r) h h2 := by
  rw [M.get_bind] at hr
  obtain ⟨r, h3, hr3, hr4⟩ := M.bind_ok.1 hr
  simp only [M.lift, Prod.mk.injEq] at hr3
  obtain ⟨hl, rfl⟩ := hr3
  rw [arrayAt_eq ha, arrayAt_eq hb] at hl
  rw [setArray_eq ha] at hr4
  exact ⟨r, hl, setShape_put ha hr4⟩

theorem inheritBounds_items {f g r : ArrayF} (hb : f.inheritBounds g = .ok r) : r.items = f.items := by
  simp only [ArrayF.inheritBounds] at hb
  obtain ⟨lo, e1, hb⟩ := Out.bind_ok.1 hb
  obtain ⟨up, e2, hb⟩ := Out.bind_ok.1 hb
  cases hu : f.uniqueItems with
  | none => simp [hu] at hb; subst hb; rfl
  | some b =>
    cases b <;> cases hu' : g.uniqueItems with
    | none => simp [hu, hu'] at hb; subst hb; rfl
    | some b' => cases b' <;> simp [hu, hu'] at hb <;> subst hb <;> rfl

theorem array_core {E : Ext} {rec : Addr → Addr → M St Addr} (ih : NarrowIH E rec) {h h2 : St} {a b : Addr} {f g : ArrayF}
    (ha : h.shapeAt a = some (.array f)) (hb : h.shapeAt b = some (.array g)) (hap : Apart h a b)
    (hm : ∀ i j, f.items = some i → g.items = some j → MayNarrow E.reMatch h i j)
    (hsep : ∀ i j, f.items = some i → g.items = some j → ¬ Part h i (.base a))
    (hr : inheritArray rec a b h = (.ok (), h2)) : Narrowed E h h2 a b := by
  have hab : a ≠ b := fun e => hap (.base a) (.self _) (by rw [e]; exact .self _)
  unfold inheritArray at hr
  rw [M.get_bind] at hr
  obtain ⟨_, hA, hr1, hr2⟩ := M.bind_ok.1 hr
  rw [arrayAt_eq ha, arrayAt_eq hb] at hr1
  have hbA : ∀ y, Part h b (.base y) → y ≠ a := fun y hy e => hap (.base a) (.self _) (by rw [← e]; exact hy)
  -- the two cases without a nested call
  have simple : ∀ f' : ArrayF, Put a (.array f') h hA ∨ (hA = h ∧ f' = f) →
      (∀ i, f'.items = some i → Part h a (.base i) ∨ Part h b (.base i)) →
      (∀ j, g.items = some j → f'.items = some j) → Narrowed E h h2 a b := by
    intro f' hf' hitems hsame
    have hAa : hA.shapeAt a = some (.array f') := by
      rcases hf' with p | ⟨rfl, rfl⟩
      · exact p.shape
      · exact ha
    have hAb : hA.shapeAt b = some (.array g) := by
      rcases hf' with p | ⟨rfl, rfl⟩
      · rw [p.other hab.symm]; exact hb
      · exact hb
    obtain ⟨r, hbd, put⟩ := array_second hAa hAb hr2
    have agree : Agree (fun l => l ≠ .base a) h h2 := by
      rcases hf' with p | ⟨rfl, rfl⟩
      · exact p.agree.trans put.agree
      · exact put.agree
    have hri : r.items = f'.items := inheritBounds_items hbd
    refine ⟨agree.mono (fun l hl e => hl (by rw [e]; exact .self _)), ?_, ?_, ?_, ?_, ?_⟩
    · rcases hf' with p | ⟨rfl, rfl⟩
      · rw [put.ppmaps, p.ppmaps]
      · exact put.ppmaps
    · intro x hx
      have := put.anys (by simp) x hx
      rcases hf' with p | ⟨rfl, rfl⟩
      · exact p.anys (by simp) x this
      · exact this
    · intro x hx _
      rw [put.visited]
      rcases hf' with p | ⟨rfl, rfl⟩
      · rw [p.visited]; exact hx
      · exact hx
    · refine ((stays_part h a).union (stays_part h b)).setBase agree ?_ ?_ ?_ ?_ ?_
      · intro f i h1; rw [put.shape] at h1; simp at h1
      · intro f i h1; rw [put.shape] at h1; simp at h1
      · intro f y h1 h3
        rw [put.shape] at h1
        simp at h1; subst h1
        exact hitems y (by rw [← hri]; exact h3)
      · intro l e h1; rw [put.shape] at h1; simp at h1
      · intro y h1; rw [put.shape] at h1; simp at h1
    · intro v hv
      rw [valid_iff_step] at hv ⊢
      unfold Step at hv ⊢
      rw [put.shape] at hv
      rw [hb]
      simp only at hv ⊢
      refine (array_bounds_ok hbd E.hash hv ?_).2
      intro j hj
      refine ⟨j, hsame j hj, fun x hx => ?_⟩
      rw [valid_agree (h := h) (agree.mono ?_)] at hx
      · exact hx
      · intro l hl e
        subst e
        exact hap (.base a) (.self _) (.sub hb (.items hj) hl)
  cases hfi : f.items with
  | none =>
    simp only [hfi] at hr1
    rw [setArray_eq ha] at hr1
    refine simple _ (Or.inl (setShape_put ha hr1)) ?_ (fun j hj => hj)
    intro i hi
    exact Or.inr (.sub hb (.items hi) (.self _))
  | some i =>
    cases hgi : g.items with
    | none =>
      simp only [hfi, hgi] at hr1
      obtain ⟨_, rfl⟩ := M.ret_ok.1 hr1
      refine simple f (Or.inr ⟨rfl, rfl⟩) ?_ (by simp [hgi])
      intro i' hi'
      exact Or.inl (.sub ha (.items hi') (.self _))
    | some j =>
      simp only [hfi, hgi] at hr1
      obtain ⟨r0, h3, hrec, hr1⟩ := M.bind_ok.1 hr1
      obtain ⟨_, rfl⟩ := M.ret_ok.1 hr1
      have hpi : ∀ l, Part h i l → Part h a l := fun l hl => .sub ha (.items hfi) hl
      have hpj : ∀ l, Part h j l → Part h b l := fun l hl => .sub hb (.items hgi) hl
      have N := ih h i j h3 r0 (hm i j hfi hgi) (fun l hl hl' => hap l (hpi l hl) (hpj l hl')) hrec
      have hai : ¬ Part h i (.base a) := hsep i j hfi hgi
      have h3a : h3.shapeAt a = some (.array f) := by rw [N.frame.shapeAt hai]; exact ha
      have h3b : h3.shapeAt b = some (.array g) := by
        rw [N.frame.shapeAt (fun hl => hap _ (hpi _ hl) (.self _))]; exact hb
      obtain ⟨r, hbd, put⟩ := array_second h3a h3b hr2
      have hri : r.items = some i := by rw [inheritBounds_items hbd, hfi]
      have frame : Agree (fun l => ¬ Part h a l) h h2 :=
        (N.frame.mono fun l hl hl' => hl (hpi l hl')).trans (put.agree.mono fun l hl e => hl (by rw [e]; exact .self _))
      refine ⟨frame, by rw [put.ppmaps, N.ppmaps], ?_, ?_, ?_, ?_⟩
      · intro x hx; exact N.anys x (put.anys (by simp) x hx)
      · intro x hx hs; rw [put.visited]; exact N.idle x hx hs
      · have st : Stays h3 (fun l => Part h a l ∨ Part h b l) :=
          ((stays_part h a).union (stays_part h b)).change (T := fun l => Part h i l ∨ Part h j l)
            (N.frame.mono fun l hl hl' => hl (Or.inl hl')) N.stays (fun l hl => hl.imp (hpi l) (hpj l))
        refine st.setBase put.agree ?_ ?_ ?_ ?_ ?_
        · intro f i h1; rw [put.shape] at h1; simp at h1
        · intro f i h1; rw [put.shape] at h1; simp at h1
        · intro f' y h1 h3
          rw [put.shape] at h1
          simp at h1; subst h1
          rw [hri] at h3; cases h3
          exact Or.inl (.sub ha (.items hfi) (.self _))
        · intro l e h1; rw [put.shape] at h1; simp at h1
        · intro y h1; rw [put.shape] at h1; simp at h1
      · intro v hv
        rw [valid_iff_step] at hv ⊢
        unfold Step at hv ⊢
        rw [put.shape] at hv
        rw [hb]
        simp only at hv ⊢
        refine (array_bounds_ok hbd E.hash hv ?_).2
        intro j' hj'
        rw [hgi] at hj'; cases hj'
        refine ⟨i, hfi, fun x hx => ?_⟩
        rw [put.valid] at hx
        · exact N.valid x hx
        · intro hl
          rcases N.stays.part (Or.inl (.self _)) hl with hl | hl
          · exact hai hl
          · exact hap _ (.self _) (hpj _ hl)

end GoRaml
