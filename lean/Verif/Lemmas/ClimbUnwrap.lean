import Verif.Lemmas.ClimbInherit
import Verif.Lemmas.KinTop
import Verif.Spec.Ancestry

/-!
# What unwrapping makes of the types a type is built on (C81)
-/

namespace GoRaml.Climb

open GoRaml GoRaml.Spec

/-- `r` is `a` or an ancestor of it. -/
abbrev Above (s0 : St) (a r : Addr) : Prop := Relation.ReflTransGen (DerivesFrom s0) a r

/-- `r` is `a`, or an ancestor of it that is of type `any`. -/
def Got (s0 : St) (a r : Addr) : Prop := r = a ∨ (AncestorOf s0 r a ∧ s0.shapeAt r = some .any)

theorem Got.refl (s0 : St) (a : Addr) : Got s0 a a := .inl rfl

theorem Got.above {s0 : St} {a r : Addr} (h : Got s0 a r) : Above s0 a r := by
  rcases h with rfl | ⟨h, _⟩
  · exact .refl
  · exact h.to_reflTransGen

theorem Got.trans {s0 : St} {a b c : Addr} (h : Got s0 a b) (k : Got s0 b c) : Got s0 a c := by
  rcases k with rfl | ⟨k, h2⟩
  · exact h
  · exact .inr ⟨Relation.TransGen.trans_right h.above k, h2⟩

/-- A state of the unwrapping of `s0`. -/
structure J (s0 s : St) : Prop where
  /-- No type is a union or a recursive reference; a type is visited only if it is `any`. -/
  plain : ∀ x b, s.base x = some b → b.shape.map tag ≠ some 1 ∧ b.shape.map tag ≠ some 2 ∧ (b.visited = true → b.shape.map tag = some 0)
  /-- Types that are still to be unwrapped are built on the same types as at first. -/
  raw : ∀ x b, s.base x = some b → b.unwrapped = false → ∃ b0, s0.base x = some b0 ∧ b.alias = b0.alias ∧ b.link = b0.link ∧ b.inherits = b0.inherits
  /-- The list of parents of a type was at first that of the type or of an ancestor. -/
  owned : ∀ x b i, s.base x = some b → b.inherits = some i → ∃ o bo, s0.base o = some bo ∧ bo.inherits = some i ∧ Above s0 x o
  /-- Parents are ancestors. -/
  slots : ∀ o bo i, s0.base o = some bo → bo.inherits = some i → ∀ p ∈ s.slice (some i), AncestorOf s0 p o
  dts : ∀ (d : Nat) (D : DT) (x : Addr), s.dts[d]? = some D → D.shape = some x → ∃ (D0 : DT) (x0 : Addr), s0.dts[d]? = some D0 ∧ D0.shape = some x0 ∧ Got s0 x0 x
  /-- Types that are not other names of types still say of themselves what they said at first. -/
  own : ∀ x b, s.base x = some b → ∃ b0, s0.base x = some b0 ∧ b.shape.map tag = b0.shape.map tag ∧ (b0.alias = none → own b = own b0 ∧ ∀ d, b0.description = some d → b.description = some d)

/-- Types stay unwrapped and keep their dynamic type. -/
structure Since (s s' : St) : Prop where
  base : ∀ x b', s'.base x = some b' → ∃ b, s.base x = some b ∧ (b.unwrapped = true → b'.unwrapped = true) ∧ b'.shape.map tag = b.shape.map tag
  libs : s'.libs = s.libs

section
variable {s0 s s1 s2 : St}

theorem Since.refl (s : St) : Since s s := ⟨fun _ b h => ⟨b, h, id, rfl⟩, rfl⟩

theorem Since.trans (h : Since s s1) (k : Since s1 s2) : Since s s2 := ⟨fun x b2 h2 => by
  obtain ⟨b1, h1, u1, t1⟩ := k.base x b2 h2
  obtain ⟨b, hb, u, t⟩ := h.base x b1 h1
  exact ⟨b, hb, fun e => u1 (u e), t1.trans t⟩, k.libs.trans h.libs⟩

theorem T.since {V : Addr → Prop} (t : T V s s1) : Since s s1 := ⟨fun x b' h => by
  obtain ⟨b, h1, r⟩ := t.base x b' h
  exact ⟨b, h1, fun e => r.unwrapped.trans e, r.tag⟩, (Prod.mk.inj t.dts).2⟩

theorem J.is_plain (j : J s0 s) : Plain s := fun x b h => (j.plain x b h).1

theorem J.keep (j : J s0 s) (t : T (fun _ => False) s s1) : J s0 s1 where
  plain x b' h := by
    obtain ⟨b, h1, r⟩ := t.base x b' h
    obtain ⟨k1, k2, k3⟩ := j.plain x b h1
    refine ⟨r.tag ▸ k1, r.tag ▸ k2, fun e => ?_⟩
    rcases r.visited e with e | e | e
    · exact r.tag.trans (k3 e)
    · exact e
    · exact e.elim
  raw x b' h hu := by
    obtain ⟨b, h1, r⟩ := t.base x b' h
    obtain ⟨b0, k0, k1, k2, k3⟩ := j.raw x b h1 (r.unwrapped.symm.trans hu)
    exact ⟨b0, k0, r.alias.trans k1, r.link.trans k2, r.inherits.trans k3⟩
  owned x b' i h hi := by
    obtain ⟨b, h1, r⟩ := t.base x b' h
    exact j.owned x b i h1 (r.inherits.symm.trans hi)
  slots o bo i h hi p hp := j.slots o bo i h hi p (by unfold St.slice at hp ⊢; rw [← t.slices]; exact hp)
  dts d D x h hx := j.dts d D x ((Prod.mk.inj t.dts).1 ▸ h) hx
  own x b' h := by
    obtain ⟨b, h1, r⟩ := t.base x b' h
    obtain ⟨b0, k0, k1, k2⟩ := j.own x b h1
    exact ⟨b0, k0, r.tag.trans k1, fun e => ⟨r.own.trans (k2 e).1, fun d hd => r.descr d ((k2 e).2 d hd)⟩⟩

/-- What a run that returns leads to. -/
def After (s0 s s' : St) : Prop := J s0 s' ∧ Since s s'

theorem After.trans (h : After s0 s s1) (k : After s0 s1 s2) : After s0 s s2 := ⟨k.1, h.2.trans k.2⟩
theorem After.of (j : J s0 s) (t : T (fun _ => False) s s1) : After s0 s s1 := ⟨j.keep t, t.since⟩
theorem After.refl (j : J s0 s) : After s0 s s := ⟨j, .refl s⟩

/-- Nested calls. -/
def RecOK (s0 : St) (rec : Addr → M St Addr) : Prop := ∀ a s r s', J s0 s → rec a s = (.ok r, s') → After s0 s s' ∧ Got s0 a r

variable {rec : Addr → M St Addr}

theorem unwrapProps_after (hr : RecOK s0 rec) {i : Nat} : ∀ (l k : Nat) (s s' : St) (u : Unit), J s0 s → unwrapProps rec i l k s = (.ok u, s') → After s0 s s'
  | 0, _, _, _, _, _, e => by cases e
  | l + 1, k, s, s', u, j, e => by
    unfold unwrapProps at e
    split at e
    · cases e; exact .refl j
    · obtain ⟨us, s1, e1, ea⟩ := M.bind_ok.1 e
      obtain ⟨_, s2, e2, eb⟩ := M.bind_ok.1 ea
      have k1 := (hr _ _ _ _ j e1).1
      have k2 : After s0 s1 s2 := .of k1.1 (by cases e2; exact .tables rfl rfl rfl)
      exact (k1.trans k2).trans (unwrapProps_after hr l (k + 1) s2 s' u k2.1 eb)

theorem unwrapPatProps_after (hr : RecOK s0 rec) {i : Nat} : ∀ (l k : Nat) (s s' : St) (u : Unit), J s0 s → unwrapPatProps rec i l k s = (.ok u, s') → After s0 s s'
  | 0, _, _, _, _, _, e => by cases e
  | l + 1, k, s, s', u, j, e => by
    unfold unwrapPatProps at e
    split at e
    · cases e; exact .refl j
    · obtain ⟨us, s1, e1, ea⟩ := M.bind_ok.1 e
      obtain ⟨_, s2, e2, eb⟩ := M.bind_ok.1 ea
      have k1 := (hr _ _ _ _ j e1).1
      have k2 : After s0 s1 s2 := .of k1.1 (by cases e2; exact .tables rfl rfl rfl)
      exact (k1.trans k2).trans (unwrapPatProps_after hr l (k + 1) s2 s' u k2.1 eb)

theorem unwrapFacetDefs_after (hr : RecOK s0 rec) {a : Addr} {i : Nat} : ∀ (l k : Nat) (s s' : St) (u : Unit), J s0 s → unwrapFacetDefs rec a i l k s = (.ok u, s') → After s0 s s'
  | 0, _, _, _, _, _, e => by cases e
  | l + 1, k, s, s', u, j, e => by
    unfold unwrapFacetDefs at e
    split at e
    · cases e; exact .refl j
    · obtain ⟨us, s1, e1, ea⟩ := M.bind_ok.1 e
      obtain ⟨_, s2, e2, eb⟩ := M.bind_ok.1 ea
      obtain ⟨_, s3, e3, ec⟩ := M.bind_ok.1 eb
      obtain ⟨b, s4, e4, ed⟩ := M.bind_ok.1 ec
      obtain ⟨_, s5, e5, ee⟩ := M.bind_ok.1 ed
      have k1 := (hr _ _ _ _ j e1).1
      have k2 : After s0 s1 s2 := .of k1.1 (by cases e2; exact .tables rfl rfl rfl)
      have k3 : After s0 s2 s3 := .of k2.1 (by cases e3; exact .upd fun _ _ => ⟨rfl, fun _ h => h, rfl, rfl, rfl, rfl, rfl, .inl⟩)
      have k4 : After s0 s3 s4 := .of k3.1 (Keeps.getBase _ _ e4)
      have k5 : After s0 s4 s5 := .of k4.1 (by
        cases hf : b.facetDefs with
        | none => rw [hf] at e5; cases e5; exact .refl _
        | some j => rw [hf] at e5; cases e5; exact .tables rfl rfl rfl)
      exact (((((k1.trans k2).trans k3).trans k4).trans k5)).trans (unwrapFacetDefs_after hr l (k + 1) s5 s' u k5.1 ee)

theorem whenSome_after {α : Type} {p : Option α} {f : α → M St Unit} {u : Unit} (j : J s0 s) (h : ∀ x s', f x s = (.ok u, s') → After s0 s s') {s' : St} (e : whenSome p f s = (.ok u, s')) :
    After s0 s s' := by
  cases p with
  | none => cases e; exact .refl j
  | some x => exact h x s' e

theorem unwrapTarget_after (hr : RecOK s0 rec) {n : Nat} {a : Addr} (j : J s0 s) {u : Unit} {s' : St} (e : unwrapTarget rec n a s = (.ok u, s')) : After s0 s s' := by
  replace e : unwrapTargetShape rec n a (s.shapeAt a) s = (.ok u, s') := e
  cases hs : s.shapeAt a with
  | none => rw [hs] at e; cases e; exact .refl j
  | some q =>
    rw [hs] at e
    cases q with
    | array f =>
      refine whenSome_after (p := f.items) (f := fun i => M.bind (rec i) fun us => fun h' => setArray a { arrayAt h' a with items := some us } h') j (fun x s' e => ?_) e
      obtain ⟨us, s1, e1, ea⟩ := M.bind_ok.1 e
      have k1 := (hr _ _ _ _ j e1).1
      exact k1.trans (.of k1.1 (setArray_keeps _ _ ea))
    | object f =>
      obtain ⟨_, s1, e1, ea⟩ := M.bind_ok.1 e
      have k1 : After s0 s s1 := whenSome_after j (fun i s' e => unwrapProps_after hr n 0 s s' () j e) e1
      exact k1.trans (whenSome_after k1.1 (fun i s' e => unwrapPatProps_after hr n 0 s1 s' u k1.1 e) ea)
    | union l w =>
      obtain ⟨b, hb, hbs⟩ := Option.bind_eq_some_iff.1 hs
      exact absurd (by rw [hbs]; rfl) (j.is_plain a b hb)
    | _ => cases e; exact .refl j

/-- The value is an ancestor of all types that had this list of parents at first. -/
def Fits (s0 : St) (i : Nat) (v : Addr) : Prop := ∀ o bo, s0.base o = some bo → bo.inherits = some i → AncestorOf s0 v o

theorem Fits.above {i : Nat} {v w : Addr} (h : Fits s0 i v) (k : Above s0 v w) : Fits s0 i w := fun o bo h1 h2 => Relation.TransGen.trans_left (h o bo h1 h2) k

theorem setSliceAt_after {i k : Nat} {v : Addr} (hv : Fits s0 i v) (j : J s0 s) : After s0 s (Heap.setSliceAt i k v s).2 := by
  refine ⟨⟨j.plain, j.raw, j.owned, fun o bo i' h hi p hp => ?_, j.dts, j.own⟩, fun x b h => ⟨b, h, id, rfl⟩, rfl⟩
  by_cases hii : i = i'
  · subst hii
    simp only [Heap.setSliceAt, St.slice, List.getElem?_modify, if_true] at hp
    have hold := j.slots o bo i h hi
    simp only [St.slice] at hold
    cases hx : s.slices[i]? with
    | none => rw [hx] at hp; simp at hp
    | some l =>
      rw [hx] at hp hold
      simp only [Option.map_eq_map, Option.map_some, Option.getD_some] at hp hold
      rcases List.mem_or_eq_of_mem_set hp with hp | rfl
      · exact hold p hp
      · exact hv o bo h hi
  · refine j.slots o bo i' h hi p ?_
    simp only [Heap.setSliceAt, St.slice, List.getElem?_modify, if_neg hii] at hp ⊢
    simpa using hp

theorem slot_fits (j : J s0 s) {i k : Nat} {p : Addr} (h : (s.slice (some i))[k]? = some p) : Fits s0 i p := fun o bo h1 h2 => j.slots o bo i h1 h2 p (List.mem_of_getElem? h)

theorem unwrapMoreParents_after (hr : RecOK s0 rec) {n : Nat} {ss : Addr} {i : Nat} (hss : Fits s0 i ss) : ∀ (l k : Nat) (s s' : St) (u : Unit), J s0 s →
    unwrapMoreParents rec n ss i l k s = (.ok u, s') → After s0 s s'
  | 0, _, _, _, _, j, e => by cases e; exact .refl j
  | l + 1, k, s, s', u, j, e => by
    unfold unwrapMoreParents at e
    split at e
    · cases e; exact .refl j
    · rename_i p hp
      obtain ⟨us, s1, e1, ea⟩ := M.bind_ok.1 e
      obtain ⟨us', s2, e2, eb⟩ := M.bind_ok.1 ea
      obtain ⟨_, s3, e3, ec⟩ := M.bind_ok.1 eb
      obtain ⟨k1, q1⟩ := hr _ _ _ _ j e1
      obtain ⟨t2, hus⟩ := inherit_keeps n ss us s1 k1.1.is_plain us' s2 e2
      have k2 : After s0 s1 s2 := .of k1.1 t2
      have hfit : Fits s0 i us' := by
        rcases hus with rfl | ⟨rfl, _⟩
        · exact hss
        · exact (slot_fits j hp).above q1.above
      have k3 : After s0 s2 s3 := by cases e3; exact setSliceAt_after hfit k2.1
      exact ((k1.trans k2).trans k3).trans (unwrapMoreParents_after hr hss l (k + 1) s3 s' u k3.1 ec)

theorem unwrapParents_after (hr : RecOK s0 rec) {n : Nat} {a : Addr} (j : J s0 s) {b b0 : Base} (hb : s.base a = some b) (hun : b.unwrapped = true) (hb0 : s0.base a = some b0) (h1 : b.link = b0.link)
    (h2 : b.inherits = b0.inherits) {o : Option Addr} {s' : St} (e : unwrapParents rec n a s = (.ok o, s')) : After s0 s s' ∧ ∀ x, o = some x → AncestorOf s0 x a := by
  unfold unwrapParents at e
  obtain ⟨b', s1, e1, ea⟩ := M.bind_ok.1 e
  clear e
  obtain ⟨rfl, hb'⟩ := getBase_ok e1
  rw [hb] at hb'; cases hb'
  split at ea
  · rename_i d hd
    split at ea
    · cases ea
    · rename_i x hx
      obtain ⟨us, s2, e2, eb⟩ := M.bind_ok.1 ea
      obtain ⟨_, s3, e3, ec⟩ := M.bind_ok.1 eb
      cases ec
      obtain ⟨k2, q2⟩ := hr _ _ _ _ j e2
      obtain ⟨D, hD, hDx⟩ := Option.bind_eq_some_iff.1 hx
      obtain ⟨D0, x0, hD0, hx0, q0⟩ := j.dts d D x hD hDx
      have hder : AncestorOf s0 x0 a := .single (.include_ hb0 (h1 ▸ hd) hD0 hx0)
      have k3 : After s0 s2 s' := by
        cases e3
        refine ⟨⟨fun x c hc => ?_, fun x c hc hcu => ?_, fun x c i hc hci => ?_, k2.1.slots, k2.1.dts, fun x c hc => ?_⟩, fun x c hc => ?_, rfl⟩
        · obtain ⟨c', hc', ⟨_, rfl⟩ | ⟨rfl, rfl⟩⟩ := modify_back hc
          · exact k2.1.plain x _ hc'
          · exact k2.1.plain _ c' hc'
        · obtain ⟨c', hc', ⟨_, rfl⟩ | ⟨rfl, rfl⟩⟩ := modify_back hc
          · exact k2.1.raw x _ hc' hcu
          · obtain ⟨c0, hc0, hu0, _⟩ := k2.2.base _ _ hc'
            rw [hb] at hc0; cases hc0
            rw [hu0 hun] at hcu
            cases hcu
        · obtain ⟨c', hc', ⟨_, rfl⟩ | ⟨rfl, rfl⟩⟩ := modify_back hc
          · exact k2.1.owned x _ i hc' hci
          · exact k2.1.owned _ c' i hc' hci
        · obtain ⟨c', hc', ⟨_, rfl⟩ | ⟨rfl, rfl⟩⟩ := modify_back hc
          · exact k2.1.own x _ hc'
          · exact k2.1.own _ c' hc'
        · obtain ⟨c', hc', ⟨_, rfl⟩ | ⟨rfl, rfl⟩⟩ := modify_back hc
          · exact ⟨_, hc', id, rfl⟩
          · exact ⟨c', hc', id, rfl⟩
      refine ⟨k2.trans k3, fun y hy => ?_⟩
      cases hy
      exact Relation.TransGen.trans_left hder (q0.trans q2).above
  · rename_i hd
    split at ea
    · rename_i i p ps hi hs
      obtain ⟨ss, s2, e2, eb⟩ := M.bind_ok.1 ea
      obtain ⟨_, s3, e3, ec⟩ := M.bind_ok.1 eb
      obtain ⟨_, s4, e4, ed⟩ := M.bind_ok.1 ec
      cases ed
      obtain ⟨k2, q2⟩ := hr _ _ _ _ j e2
      have hp : Fits s0 i p := slot_fits (k := 0) j (by rw [hi] at hs; rw [hs]; rfl)
      have hss := hp.above q2.above
      have k3 : After s0 s2 s3 := by cases e3; exact setSliceAt_after hss k2.1
      have k4 := unwrapMoreParents_after hr hss _ _ _ _ _ k3.1 e4
      refine ⟨(k2.trans k3).trans k4, fun y hy => ?_⟩
      cases hy
      exact hss a b0 hb0 (h2 ▸ hi)
    · cases ea
      exact ⟨.refl j, fun y hy => by cases hy⟩

theorem unwrapFinish_after {n : Nat} {a : Addr} (j : J s0 s) {o : Option Addr} (ho : ∀ x, o = some x → AncestorOf s0 x a) {r : Addr} {s' : St} (e : unwrapFinish n a o s = (.ok r, s')) :
    After s0 s s' ∧ Got s0 a r := by
  unfold unwrapFinish at e
  obtain ⟨r', s1, e1, ea⟩ := M.bind_ok.1 e
  obtain ⟨_, s2, e2, eb⟩ := M.bind_ok.1 ea
  cases eb
  have k1 : After s0 s s1 ∧ Got s0 a r := by
    cases o with
    | none => cases e1; exact ⟨.refl j, .refl _ _⟩
    | some x =>
      obtain ⟨t, h⟩ := inherit_keeps n a x s j.is_plain r s1 e1
      refine ⟨.of j t, ?_⟩
      rcases h with rfl | ⟨rfl, c, hc, hv⟩
      · exact .refl _ _
      · refine .inr ⟨ho _ rfl, ?_⟩
        obtain ⟨c0, k0, k1, _⟩ := j.own _ c hc
        have ht := k1.symm.trans ((j.plain _ c hc).2.2 hv)
        obtain ⟨q, hq, hqt⟩ := Option.map_eq_some_iff.1 ht
        cases q <;> simp [tag] at hqt
        simp [St.shapeAt, k0, hq]
  exact ⟨k1.1.trans (.of k1.1.1 (by cases e2; exact .tables rfl rfl rfl)), k1.2⟩

theorem aliasShape_tag {t u q : Shape} (h : aliasShape t u = .ok q) : tag q = tag t := by
  unfold aliasShape at h
  split at h <;> first | (cases h; done) | (cases h; rfl)

theorem aliasTo_after {a us : Addr} (j : J s0 s) (hus : AncestorOf s0 us a) (hun : ∀ b, s.base a = some b → b.unwrapped = true)
    (hal : ∀ b0, s0.base a = some b0 → b0.alias ≠ none) {r : Addr} {s' : St} (e : aliasTo a us s = (.ok r, s')) :
    After s0 s s' ∧ r = a := by
  unfold aliasTo at e
  obtain ⟨t, s1, e1, ea⟩ := M.bind_ok.1 e
  clear e
  obtain ⟨rfl, ht⟩ := getShape_ok e1
  obtain ⟨u, s2, e2, eb⟩ := M.bind_ok.1 ea
  clear ea
  obtain ⟨rfl, hu⟩ := getShape_ok e2
  obtain ⟨q, s3, e3, ec⟩ := M.bind_ok.1 eb
  clear eb
  obtain ⟨e4, rfl⟩ := Prod.mk.inj e3
  obtain ⟨_, s4, e5, ed⟩ := M.bind_ok.1 ec
  clear ec
  obtain ⟨src, s5, e6, ee⟩ := M.bind_ok.1 ed
  clear ed
  obtain ⟨rfl, hsrc⟩ := getBase_ok e6
  obtain ⟨_, s6, e7, ef⟩ := M.bind_ok.1 ee
  cases ef
  have t5 : T (fun _ => False) s2 s5 := setShape_keeps (fun b hb => by
    obtain ⟨b', hb', hbs⟩ := Option.bind_eq_some_iff.1 ht
    rw [hb] at hb'; cases hb'
    rw [hbs, aliasShape_tag e4]; rfl) _ _ e5
  have k5 : After s0 s2 s5 := .of j t5
  refine ⟨k5.trans ?_, rfl⟩
  have hun5 : ∀ b, s5.base a = some b → b.unwrapped = true := fun b hb => by
    obtain ⟨b', hb', hu', _⟩ := k5.2.base a b hb
    exact hu' (hun b' hb')
  cases e7
  refine ⟨⟨fun x c hc => ?_, fun x c hc hcu => ?_, fun x c i hc hci => ?_, k5.1.slots, k5.1.dts, fun x c hc => ?_⟩, fun x c hc => ?_, rfl⟩
  · obtain ⟨c', hc', ⟨_, rfl⟩ | ⟨rfl, rfl⟩⟩ := modify_back hc
    · exact k5.1.plain x _ hc'
    · exact k5.1.plain _ c' hc'
  · obtain ⟨c', hc', ⟨_, rfl⟩ | ⟨rfl, rfl⟩⟩ := modify_back hc
    · exact k5.1.raw x _ hc' hcu
    · exact absurd (hun5 _ hc') (by simpa using hcu)
  · obtain ⟨c', hc', ⟨_, rfl⟩ | ⟨rfl, rfl⟩⟩ := modify_back hc
    · exact k5.1.owned x _ i hc' hci
    · obtain ⟨o, bo, h1, h2, h3⟩ := k5.1.owned us src i hsrc hci
      exact ⟨o, bo, h1, h2, hus.to_reflTransGen.trans h3⟩
  · obtain ⟨c', hc', ⟨_, rfl⟩ | ⟨rfl, rfl⟩⟩ := modify_back hc
    · exact k5.1.own x _ hc'
    · obtain ⟨b0, k0, k1, _⟩ := k5.1.own _ c' hc'
      exact ⟨b0, k0, k1, fun e => absurd e (hal b0 k0)⟩
  · obtain ⟨c', hc', ⟨_, rfl⟩ | ⟨rfl, rfl⟩⟩ := modify_back hc
    · exact ⟨_, hc', id, rfl⟩
    · exact ⟨c', hc', id, rfl⟩

theorem unwrap_after : ∀ (n : Nat), RecOK s0 (unwrap n)
  | 0, _, _, _, _, _, e => by cases e
  | n + 1, a, s, r, s', j, e => by
    have hr := unwrap_after n
    unfold unwrap at e
    obtain ⟨b, s1, e1, ea⟩ := M.bind_ok.1 e
    clear e
    obtain ⟨rfl, hb⟩ := getBase_ok e1
    rcases hs : b.shape with _ | q
    · rw [hs] at ea; cases ea
    rw [hs] at ea
    by_cases hu : b.unwrapped = true
    · simp only [hu, if_true] at ea
      cases ea; exact ⟨.refl j, .refl _ _⟩
    simp only [hu, Bool.false_eq_true, if_false] at ea
    have hu : b.unwrapped = false := by simpa using hu
    obtain ⟨b0, hb0, h1, h2, h3⟩ := j.raw a b hb hu
    obtain ⟨_, s2, e2, eb⟩ := M.bind_ok.1 ea
    clear ea
    have hb2 : s2.base a = some { b with unwrapped := true } := by
      cases e2
      show ({ s1 with bases := s1.bases.modify a _ } : St).base a = _
      rw [base_modify, hb]; simp
    have k2 : After s0 s1 s2 := by
      cases e2
      refine ⟨⟨fun x c hc => ?_, fun x c hc hcu => ?_, fun x c i hc hci => ?_, j.slots, j.dts, fun x c hc => ?_⟩, fun x c hc => ?_, rfl⟩
      · obtain ⟨c', hc', ⟨_, rfl⟩ | ⟨rfl, rfl⟩⟩ := modify_back hc
        · exact j.plain x _ hc'
        · exact j.plain _ c' hc'
      · obtain ⟨c', hc', ⟨_, rfl⟩ | ⟨rfl, rfl⟩⟩ := modify_back hc
        · exact j.raw x _ hc' hcu
        · cases hcu
      · obtain ⟨c', hc', ⟨_, rfl⟩ | ⟨rfl, rfl⟩⟩ := modify_back hc
        · exact j.owned x _ i hc' hci
        · exact j.owned _ c' i hc' hci
      · obtain ⟨c', hc', ⟨_, rfl⟩ | ⟨rfl, rfl⟩⟩ := modify_back hc
        · exact j.own x _ hc'
        · exact j.own _ c' hc'
      · obtain ⟨c', hc', ⟨_, rfl⟩ | ⟨rfl, rfl⟩⟩ := modify_back hc
        · exact ⟨_, hc', id, rfl⟩
        · exact ⟨c', hc', fun _ => rfl, rfl⟩
    rcases ht : b.alias with _ | t
    rotate_left
    · rw [ht] at eb
      obtain ⟨us, s3, e3, ec⟩ := M.bind_ok.1 eb
      obtain ⟨_, s4, e4, ed⟩ := M.bind_ok.1 ec
      obtain ⟨k3, q3⟩ := hr _ _ _ _ k2.1 e3
      have k4 : After s0 s3 s4 := .of k3.1 (by cases e4; exact .tables rfl rfl rfl)
      have hd : DerivesFrom s0 a t := .alias hb0 (h1 ▸ ht)
      obtain ⟨k5, rfl⟩ := aliasTo_after k4.1 (Relation.TransGen.trans_left (.single hd) q3.above) (fun c hc => by
        obtain ⟨c', hc', hu', _⟩ := (k3.trans k4).2.base a c hc
        rw [hb2] at hc'; cases hc'
        exact hu' rfl) (fun c0 hc0 => by
          rw [hb0] at hc0; cases hc0
          rw [← h1, ht]; simp) ed
      exact ⟨((k2.trans k3).trans k4).trans k5, .refl _ _⟩
    · rw [ht] at eb
      obtain ⟨o, s3, e3, ec⟩ := M.bind_ok.1 eb
      clear eb
      obtain ⟨_, s4, e4, ed⟩ := M.bind_ok.1 ec
      clear ec
      obtain ⟨b', s5, e5, ee⟩ := M.bind_ok.1 ed
      clear ed
      obtain ⟨_, s6, e6, ef⟩ := M.bind_ok.1 ee
      clear ee
      obtain ⟨rfl, hb'⟩ := getBase_ok e5
      obtain ⟨k3, q3⟩ := unwrapParents_after hr k2.1 hb2 rfl hb0 h2 h3 e3
      have k4 := unwrapTarget_after hr k3.1 e4
      have k6 : After s0 s5 s6 := whenSome_after k4.1 (fun i s' e => unwrapFacetDefs_after hr n 0 s5 s' _ k4.1 e) e6
      obtain ⟨k7, q7⟩ := unwrapFinish_after k6.1 q3 ef
      exact ⟨(((k2.trans k3).trans k4).trans k6).trans k7, q7⟩

/-! ## Whole models -/

theorem tryEach_j {α : Type} {f : α → M St Unit} : ∀ (l : List α) {s s' : St}, (∀ x s s', J s0 s → f x s = (.ok (), s') → J s0 s') → J s0 s → M.tryEach f l s = (.ok (), s') → J s0 s'
  | [], _, _, _, j, e => by cases e; exact j
  | x :: l, s, s', h, j, e => by
    obtain ⟨s1, e1, e2⟩ := Kin.tryEach_ok e
    exact tryEach_j l h (h x s s1 j e1) e2

theorem J.tables {s' : St} (j : J s0 s) (h1 : s'.bases = s.bases) (h2 : s'.slices = s.slices) (h3 : s'.dts = s.dts) : J s0 s' := by
  have e1 : s'.base = s.base := by funext x; simp only [St.base, h1]
  have e2 : s'.slice = s.slice := by funext x; simp only [St.slice, h2]
  exact ⟨e1 ▸ j.plain, e1 ▸ j.raw, e1 ▸ j.owned, e2 ▸ j.slots, h3 ▸ j.dts, e1 ▸ j.own⟩

theorem unwrapType_j {n : Nat} {c : Sect} {i : Nat} {loc : String} {ka : String × Addr} {s' : St} (j : J s0 s) (e : unwrapType n c i loc ka s = (.ok (), s')) : J s0 s' := by
  unfold unwrapType at e
  obtain ⟨us, s1, e1, ea⟩ := M.bind_ok.1 e
  clear e
  obtain ⟨_, s2, e2, eb⟩ := M.bind_ok.1 ea
  clear ea
  obtain ⟨u, s3, e3, ec⟩ := M.bind_ok.1 eb
  clear eb
  obtain ⟨rfl, _⟩ := getBase_ok e3
  have j1 := (unwrap_after n _ _ _ _ j e1).1.1
  have j2 : J s0 s3 := by cases e2; exact j1.tables rfl rfl rfl
  cases c <;> (cases ec; exact j2.tables rfl rfl rfl)

theorem unwrapFragment_j {n : Nat} {f : FragRef} {s' : St} (j : J s0 s) (e : unwrapFragment n f s = (.ok (), s')) : J s0 s' := by
  cases f with
  | library i =>
    cases hl : s.libs[i]? with
    | none => simp only [unwrapFragment, hl] at e; cases e
    | some l =>
      simp only [unwrapFragment, hl] at e
      replace e : M.tryEach (fun c => unwrapTypes n c i l) [.annotationTypes, .types] s = (.ok (), s') := e
      exact tryEach_j _ (fun c s s' j e => tryEach_j _ (fun ka s s' j e => unwrapType_j j e) j e) j e
  | dataType i =>
    cases hd : s.dts[i]? with
    | none => simp only [unwrapFragment, hd] at e; cases e
    | some d =>
      simp only [unwrapFragment, hd] at e
      unfold unwrapDataType at e
      cases ha : d.shape with
      | none => rw [ha] at e; cases e
      | some a =>
        rw [ha] at e
        obtain ⟨us, s1, e1, ea⟩ := M.bind_ok.1 e
        clear e
        obtain ⟨_, s2, e2, eb⟩ := M.bind_ok.1 ea
        clear ea
        obtain ⟨u, s3, e3, ec⟩ := M.bind_ok.1 eb
        clear eb
        obtain ⟨rfl, _⟩ := getBase_ok e3
        obtain ⟨k1, q1⟩ := unwrap_after n _ _ _ _ j e1
        have j2 : J s0 s3 := by
          cases e2
          refine ⟨k1.1.plain, k1.1.raw, k1.1.owned, k1.1.slots, fun d' D x hD hx => ?_, k1.1.own⟩
          simp only [List.getElem?_modify] at hD
          cases hDx : s1.dts[d']? with
          | none => rw [hDx] at hD; simp at hD
          | some D1 =>
            rw [hDx] at hD
            by_cases hii : i = d'
            · subst hii
              simp at hD
              subst hD
              cases hx
              obtain ⟨D0, x0, p1, p2, p3⟩ := j.dts i d a hd ha
              exact ⟨D0, x0, p1, p2, p3.trans q1⟩
            · simp [hii] at hD
              subst hD
              exact k1.1.dts d' D1 x hDx hx
        cases ec
        exact j2.tables rfl rfl rfl
  | namedExample i => cases e; exact j

theorem unwrapFragments_j {n : Nat} {fs : List FragRef} {s' : St} (j : J s0 s) (e : unwrapFragments n fs s = (.ok (), s')) : J s0 s' :=
  tryEach_j _ (fun _ _ _ j e => unwrapFragment_j j e) j e

end

end GoRaml.Climb
