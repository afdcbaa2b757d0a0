import Verif.Lemmas.WholeInherit
import Verif.Lemmas.Sticky

/-!
# Families of scalar types during unwrapping: what inheritance between other types leaves alone

`F.D` is a set of types none of which is a component of a type.  `F.s0` is the model before unwrapping.
-/

namespace GoRaml.Kin

open GoRaml GoRaml.Spec GoRaml.Whole

/-- A set of types of a model, and for each of them what its shape shall be. -/
structure Fam where
  D : Addr → Prop
  P : Addr → Shape → Prop
  s0 : St

variable {F : Fam}

/-- The slices in which a member of the family occurs. -/
def Fam.SL (F : Fam) (i : Nat) : Prop := ∃ l, F.s0.slices[i]? = some l ∧ ∃ p ∈ l, F.D p

/-- The maps of facet definitions of the family. -/
def Fam.E (F : Fam) (i : Nat) : Prop := ∃ d b, F.D d ∧ F.s0.base d = some b ∧ b.facetDefs = some i

/-- The components of the shape are outside the family. -/
def ShapeOut (F : Fam) : Shape → Prop
  | .array f => ∀ i, f.items = some i → ¬ F.D i
  | .object f => ∀ i, f.properties = some i → ¬ F.E i
  | .union l _ => ∀ i, l = some i → ¬ F.SL i
  | _ => True

/-- No component of a type is in the family; types with several parents have a first parent outside it; and what makes members of the family parents of a type
is as it was. -/
structure Inv (F : Fam) (s : St) : Prop where
  len : ∀ d, F.D d → d < s.bases.length
  base : ∀ a b sh, s.base a = some b → b.shape = some sh → ShapeOut F sh
  props : ∀ m ∈ s.pmaps, ∀ e ∈ m, ¬ F.D e.2.base
  pats : ∀ m ∈ s.ppmaps, ∀ e ∈ m, ¬ F.D e.2.base
  empt : ∀ (i : Nat), F.E i → s.pmaps[i]? = some []
  slc : ∀ (i : Nat) l, s.slices[i]? = some l → ¬ F.SL i → ∀ p ∈ l, ¬ F.D p
  one : ∀ (i : Nat) (p : Addr), F.s0.slices[i]? = some [p] → F.D p → s.slices[i]? = some [p]
  zero : ∀ (i : Nat), F.s0.slices[i]? = some [] → s.slices[i]? = some []
  many : ∀ (i : Nat) p q l, s.slices[i]? = some (p :: q :: l) → ¬ F.D p
  slen : ∀ (i : Nat), F.SL i → i < s.slices.length
  dts : ∀ (k : Nat) d x, F.s0.dts[k]? = some d → d.shape = some x → F.D x → ∃ d', s.dts[k]? = some d' ∧ d'.shape = some x

/-- The types of the family are unchanged; the other types keep their facet definitions and whether they are unwrapped. -/
def Rel (F : Fam) (s s' : St) : Prop := ∀ x b, s.base x = some b →
  ∃ b', s'.base x = some b' ∧ b'.unwrapped = b.unwrapped ∧ b'.facetDefs = b.facetDefs ∧ (F.D x → b' = b)

theorem Rel.refl (s : St) : Rel F s s := fun _ b h => ⟨b, h, rfl, rfl, fun _ => rfl⟩

theorem Rel.trans {s t u : St} (h : Rel F s t) (k : Rel F t u) : Rel F s u := fun x b hb => by
  obtain ⟨b1, h1, h2, h3, h4⟩ := h x b hb
  obtain ⟨b2, k1, k2, k3, k4⟩ := k x b1 h1
  exact ⟨b2, k1, k2.trans h2, k3.trans h3, fun hd => (k4 hd).trans (h4 hd)⟩

theorem Rel.same {s t : St} (h : t.bases = s.bases) : Rel F s t := fun x b hb => ⟨b, by unfold St.base at hb ⊢; rw [h]; exact hb, rfl, rfl, fun _ => rfl⟩

/-- Keeps the invariant and the relation, whatever the outcome. -/
abbrev Ok {α : Type} (F : Fam) (m : M St α) (s : St) (Q : α → St → Prop) : Prop := Safe (fun _ => True) (Inv F) (Rel F) m s Q

theorem Ok.bind {α β : Type} {m : M St α} {f : α → M St β} {s : St} {Q : α → St → Prop} {Q' : β → St → Prop} (h1 : Ok F m s Q)
    (h2 : ∀ x s', Inv F s' → Rel F s s' → Q x s' → Ok F (f x) s' Q') : Ok F (M.bind m f) s Q' :=
  Safe.bind (I := Inv F) (R := Rel F) (fun _ _ _ h k => Rel.trans h k) h1 h2

theorem Ok.ret {α : Type} {x : α} {s : St} {Q : α → St → Prop} (hw : Inv F s) (hq : Q x s) : Ok F (M.ret x) s Q := Safe.ret Rel.refl hw hq

theorem Ok.err {α : Type} {e : String} {s : St} {Q : α → St → Prop} (hw : Inv F s) : Ok F (M.err e : M St α) s Q := Safe.err Rel.refl hw

theorem Ok.panic {α : Type} {e : String} {s : St} {Q : α → St → Prop} (hw : Inv F s) : Ok F (M.panic e : M St α) s Q := ⟨hw, Rel.refl s, trivial⟩

theorem Ok.diverge {α : Type} {s : St} {Q : α → St → Prop} (hw : Inv F s) : Ok F (M.diverge : M St α) s Q := Safe.diverge Rel.refl hw

theorem Ok.lift {α : Type} {o : Out α} {s : St} {Q : α → St → Prop} (hw : Inv F s) (hq : ∀ x, o = .ok x → Q x s) : Ok F (M.lift o) s Q :=
  Safe.lift Rel.refl hw (fun _ _ => trivial) hq

theorem Ok.done {α : Type} {m : M St α} {s : St} {Q : α → St → Prop} (h : Ok F m s Q) : Ok F m s fun _ _ => True := Safe.post h fun _ _ _ _ _ => trivial

section
variable {s : St}

theorem Ok.getBase {a : Addr} (hw : Inv F s) : Ok F (Heap.getBase a) s fun b s' => s' = s ∧ s.base a = some b := by
  unfold Ok Safe Outcome Heap.getBase
  cases hb : s.base a with
  | none => exact ⟨hw, Rel.refl s, trivial⟩
  | some b => exact ⟨hw, Rel.refl s, rfl, rfl⟩

theorem Ok.getShape {a : Addr} (hw : Inv F s) : Ok F (Heap.getShape a) s fun sh s' => s' = s ∧ s.shapeAt a = some sh := by
  unfold Ok Safe Outcome Heap.getShape
  cases hb : s.shapeAt a with
  | none => exact ⟨hw, Rel.refl s, trivial⟩
  | some b => exact ⟨hw, Rel.refl s, rfl, rfl⟩

theorem Inv.grow {s' : St} (hw : Inv F s) (hl : s.bases.length ≤ s'.bases.length)
    (hb : ∀ a b, s'.base a = some b → s.base a = some b ∨ ∀ sh, b.shape = some sh → ShapeOut F sh)
    (hp : ∀ m ∈ s'.pmaps, m ∈ s.pmaps ∨ ∀ e ∈ m, ¬ F.D e.2.base) (he : ∀ i, F.E i → s'.pmaps[i]? = s.pmaps[i]?)
    (hpp : ∀ m ∈ s'.ppmaps, m ∈ s.ppmaps ∨ ∀ e ∈ m, ¬ F.D e.2.base)
    (hs : ∃ t, s'.slices = s.slices ++ t ∧ ∀ l ∈ t, ∀ p ∈ l, ¬ F.D p) (hd : s.dts <+: s'.dts) : Inv F s' where
  len d h := Nat.lt_of_lt_of_le (hw.len d h) hl
  base a b sh h hs := (hb a b h).elim (fun h => hw.base a b sh h hs) fun k => k sh hs
  props m h := (hp m h).elim (hw.props m) id
  pats m h := (hpp m h).elim (hw.pats m) id
  empt i h := (he i h).trans (hw.empt i h)
  slc i l h hn p hpl := by
    obtain ⟨t, ht, hq⟩ := hs
    rw [ht, List.getElem?_append] at h
    split at h
    · exact hw.slc i l h hn p hpl
    · exact hq l (List.mem_of_getElem? h) p hpl
  one i p h hp := by
    obtain ⟨t, ht, _⟩ := hs
    have := hw.one i p h hp
    rw [ht, List.getElem?_append_left (List.getElem?_eq_some_iff.1 this).1]
    exact this
  zero i h := by
    obtain ⟨t, ht, _⟩ := hs
    have := hw.zero i h
    rw [ht, List.getElem?_append_left (List.getElem?_eq_some_iff.1 this).1]
    exact this
  many i p q l h := by
    obtain ⟨t, ht, hq⟩ := hs
    rw [ht, List.getElem?_append] at h
    split at h
    · exact hw.many i p q l h
    · exact hq _ (List.mem_of_getElem? h) p (by simp)
  slen i h := by
    obtain ⟨t, ht, _⟩ := hs
    rw [ht, List.length_append]
    exact Nat.lt_of_lt_of_le (hw.slen i h) (Nat.le_add_right _ _)
  dts k d x h1 h2 h3 := by
    obtain ⟨d', h4, h5⟩ := hw.dts k d x h1 h2 h3
    obtain ⟨t, ht⟩ := hd
    refine ⟨d', ?_, h5⟩
    rw [← ht, List.getElem?_append_left (List.getElem?_eq_some_iff.1 h4).1]
    exact h4

theorem slices_same {s' : St} (h : s'.slices = s.slices) : ∃ t, s'.slices = s.slices ++ t ∧ ∀ l ∈ t, ∀ p ∈ l, ¬ F.D p := ⟨[], by simp [h], fun _ h => (by cases h)⟩

theorem Inv.upd {a : Addr} {f : Base → Base} (hw : Inv F s) (hf : ∀ b, s.base a = some b → ∀ sh, (f b).shape = some sh → ShapeOut F sh) :
    Inv F { s with bases := s.bases.modify a f } := by
  refine hw.grow (by simp) (fun x b hb => ?_) (fun _ h => .inl h) (fun _ _ => rfl) (fun _ h => .inl h) (slices_same rfl) List.prefix_rfl
  rw [base_upd] at hb
  cases hb0 : s.base x with
  | none => rw [hb0] at hb; cases hb
  | some b0 =>
    rw [hb0] at hb
    simp only [Option.map_some, Option.some.injEq] at hb
    split at hb
    · rename_i e; subst e; subst hb; exact .inr (hf b0 hb0)
    · exact .inl (by rw [hb])

theorem Ok.upd {a : Addr} {f : Base → Base} (hw : Inv F s) (ha : ¬ F.D a) (hf : ∀ b, s.base a = some b → ∀ sh, (f b).shape = some sh → ShapeOut F sh)
    (hu : ∀ b, (f b).unwrapped = b.unwrapped) (hd : ∀ b, (f b).facetDefs = b.facetDefs) : Ok F (Heap.updBase a f) s fun _ _ => True := by
  refine ⟨hw.upd hf, fun x b hb => ?_, trivial⟩
  simp only [Heap.updBase]
  rw [base_upd, hb]
  by_cases hx : a = x
  · subst hx; simp only [Option.map_some, if_true]; exact ⟨_, rfl, hu b, hd b, fun h => absurd h ha⟩
  · simp only [Option.map_some, hx, if_false]; exact ⟨_, rfl, rfl, rfl, fun _ => rfl⟩

/-- Changes of a field that does not matter. -/
theorem Ok.flag {a : Addr} {f : Base → Base} (hw : Inv F s) (ha : ¬ F.D a) (h1 : ∀ b, (f b).shape = b.shape)
    (hu : ∀ b, (f b).unwrapped = b.unwrapped) (hd : ∀ b, (f b).facetDefs = b.facetDefs) : Ok F (Heap.updBase a f) s fun _ _ => True :=
  Ok.upd hw ha (fun b hb sh hs => hw.base a b sh hb (by rw [← h1]; exact hs)) hu hd

theorem Ok.newBase {b : Base} (hw : Inv F s) (hb : ∀ sh, b.shape = some sh → ShapeOut F sh) : Ok F (Heap.newBase b) s fun c s' => ¬ F.D c := by
  refine ⟨hw.grow (by simp [Heap.newBase]) (fun x c hc => ?_) (fun _ h => .inl h) (fun _ _ => rfl) (fun _ h => .inl h) (slices_same rfl) List.prefix_rfl, ?_,
    fun hd => absurd (hw.len _ hd) (Nat.lt_irrefl _)⟩
  · simp only [St.base, Heap.newBase, List.getElem?_append] at hc
    split at hc
    · exact .inl hc
    · rw [List.getElem?_singleton] at hc
      split at hc
      · cases hc; exact .inr hb
      · cases hc
  · intro x c hc
    refine ⟨c, ?_, rfl, rfl, fun _ => rfl⟩
    unfold St.base at hc ⊢
    simp only [Heap.newBase]
    rw [List.getElem?_append_left (List.getElem?_eq_some_iff.1 hc).1]
    exact hc

theorem Ok.newProps {m : OMap Property} (hw : Inv F s) (hm : ∀ e ∈ m, ¬ F.D e.2.base) : Ok F (Heap.newProps m) s fun i s' => ¬ F.E i := by
  refine ⟨hw.grow (Nat.le_refl _) (fun _ _ h => .inl h) (fun x h => ?_) (fun i hi => ?_) (fun _ h => .inl h) (slices_same rfl) List.prefix_rfl, Rel.same rfl, fun hd => ?_⟩
  · rcases List.mem_append.1 h with h | h
    · exact .inl h
    · cases List.mem_singleton.1 h; exact .inr hm
  · exact List.getElem?_append_left (List.getElem?_eq_some_iff.1 (hw.empt i hi)).1
  · exact absurd (List.getElem?_eq_some_iff.1 (hw.empt _ hd)).1 (Nat.lt_irrefl _)

theorem Ok.newPatProps {m : OMap PatternProperty} (hw : Inv F s) (hm : ∀ e ∈ m, ¬ F.D e.2.base) : Ok F (Heap.newPatProps m) s fun _ _ => True := by
  refine ⟨hw.grow (Nat.le_refl _) (fun _ _ h => .inl h) (fun _ h => .inl h) (fun _ _ => rfl) (fun x h => ?_) (slices_same rfl) List.prefix_rfl, Rel.same rfl, trivial⟩
  rcases List.mem_append.1 h with h | h
  · exact .inl h
  · cases List.mem_singleton.1 h; exact .inr hm

theorem Ok.newSlice {m : List Addr} (hw : Inv F s) (hm : ∀ e ∈ m, ¬ F.D e) : Ok F (Heap.newSlice m) s fun i _ => ¬ F.SL i := by
  refine ⟨hw.grow (Nat.le_refl _) (fun _ _ h => .inl h) (fun _ h => .inl h) (fun _ _ => rfl) (fun _ h => .inl h) ⟨[m], rfl, fun l hl => ?_⟩ List.prefix_rfl, Rel.same rfl,
    fun hd => absurd (hw.slen _ hd) (Nat.lt_irrefl _)⟩
  rw [List.mem_singleton.1 hl]; exact hm

theorem Ok.newFacets {m : OMap GoVal} (hw : Inv F s) : Ok F (Heap.newFacets m) s fun _ _ => True :=
  ⟨hw.grow (Nat.le_refl _) (fun _ _ h => .inl h) (fun _ h => .inl h) (fun _ _ => rfl) (fun _ h => .inl h) (slices_same rfl) List.prefix_rfl, Rel.same rfl, trivial⟩

theorem Ok.newDT {d : DT} (hw : Inv F s) : Ok F (Heap.newDT d) s fun _ _ => True :=
  ⟨hw.grow (Nat.le_refl _) (fun _ _ h => .inl h) (fun _ h => .inl h) (fun _ _ => rfl) (fun _ h => .inl h) (slices_same rfl) (List.prefix_append _ _), Rel.same rfl, trivial⟩

theorem Ok.newID (hw : Inv F s) : Ok F Heap.newID s fun _ _ => True :=
  ⟨hw.grow (Nat.le_refl _) (fun _ _ h => .inl h) (fun _ h => .inl h) (fun _ _ => rfl) (fun _ h => .inl h) (slices_same rfl) List.prefix_rfl, Rel.same rfl, trivial⟩

theorem Ok.setFacet {i : Nat} {k : String} {v : GoVal} (hw : Inv F s) : Ok F (Heap.setFacet i k v) s fun _ _ => True :=
  ⟨hw.grow (Nat.le_refl _) (fun _ _ h => .inl h) (fun _ h => .inl h) (fun _ _ => rfl) (fun _ h => .inl h) (slices_same rfl) List.prefix_rfl, Rel.same rfl, trivial⟩

theorem Inv.modProps {i : Nat} {f : OMap Property → OMap Property} (hw : Inv F s) (hi : ¬ F.E i) (hf : ∀ m, s.pmaps[i]? = some m → ∀ e ∈ f m, e ∈ m ∨ ¬ F.D e.2.base) :
    Inv F { s with pmaps := s.pmaps.modify i f } := by
  refine hw.grow (Nat.le_refl _) (fun _ _ h => .inl h) (fun x h => ?_) (fun j hj => ?_) (fun _ h => .inl h) (slices_same rfl) List.prefix_rfl
  · rcases mem_modify h with h | ⟨y, h1, h2, rfl⟩
    · exact .inl h
    · exact .inr fun e he => (hf y h2 e he).elim (hw.props y h1 e) id
  · have hne : i ≠ j := fun e => hi (e ▸ hj)
    simp [List.getElem?_modify, hne]

theorem Ok.setProp {i : Nat} {k : String} {p : Property} (hw : Inv F s) (hi : ¬ F.E i) (hp : ¬ F.D p.base) : Ok F (Heap.setProp i k p) s fun _ _ => True :=
  ⟨hw.modProps hi fun _ _ _ he => (mem_omap_set he).imp id fun e => by rw [e]; exact hp, Rel.same rfl, trivial⟩

theorem Inv.setPropAt {i k : Nat} {p : String × Property} (hw : Inv F s) (hi : ¬ F.E i) (hp : ¬ F.D p.2.base) : Inv F (Heap.setPropAt i k p s).2 :=
  hw.modProps hi fun _ _ _ he => (List.mem_or_eq_of_mem_set he).imp id fun e => by rw [e]; exact hp

theorem Inv.modPats {i : Nat} {f : OMap PatternProperty → OMap PatternProperty} (hw : Inv F s) (hf : ∀ m, s.ppmaps[i]? = some m → ∀ e ∈ f m, e ∈ m ∨ ¬ F.D e.2.base) :
    Inv F { s with ppmaps := s.ppmaps.modify i f } := by
  refine hw.grow (Nat.le_refl _) (fun _ _ h => .inl h) (fun _ h => .inl h) (fun _ _ => rfl) (fun x h => ?_) (slices_same rfl) List.prefix_rfl
  rcases mem_modify h with h | ⟨y, h1, h2, rfl⟩
  · exact .inl h
  · exact .inr fun e he => (hf y h2 e he).elim (hw.pats y h1 e) id

theorem Ok.setPatProp {i : Nat} {k : String} {p : PatternProperty} (hw : Inv F s) (hp : ¬ F.D p.base) : Ok F (Heap.setPatProp i k p) s fun _ _ => True :=
  ⟨hw.modPats fun _ _ _ he => (mem_omap_set he).imp id fun e => by rw [e]; exact hp, Rel.same rfl, trivial⟩

theorem Inv.setPatPropAt {i k : Nat} {p : String × PatternProperty} (hw : Inv F s) (hp : ¬ F.D p.2.base) : Inv F (Heap.setPatPropAt i k p s).2 :=
  hw.modPats fun _ _ _ he => (List.mem_or_eq_of_mem_set he).imp id fun e => by rw [e]; exact hp

theorem Inv.propsOf (hw : Inv F s) {p : Option Nat} {e : String × Property} (he : e ∈ s.props p) : ¬ F.D e.2.base := by
  unfold St.props at he
  cases p with
  | none => cases he
  | some i =>
    simp only at he
    cases hi : s.pmaps[i]? with
    | none => rw [hi] at he; cases he
    | some m => rw [hi] at he; exact hw.props m (List.mem_of_getElem? hi) e he

theorem Inv.patsOf (hw : Inv F s) {p : Option Nat} {e : String × PatternProperty} (he : e ∈ s.patProps p) : ¬ F.D e.2.base := by
  unfold St.patProps at he
  cases p with
  | none => cases he
  | some i =>
    simp only at he
    cases hi : s.ppmaps[i]? with
    | none => rw [hi] at he; cases he
    | some m => rw [hi] at he; exact hw.pats m (List.mem_of_getElem? hi) e he

theorem Inv.sliceOf (hw : Inv F s) {p : Option Nat} (hp : ∀ i, p = some i → ¬ F.SL i) {e : Addr} (he : e ∈ s.slice p) : ¬ F.D e := by
  unfold St.slice at he
  cases p with
  | none => cases he
  | some i =>
    simp only at he
    cases hi : s.slices[i]? with
    | none => rw [hi] at he; cases he
    | some m => rw [hi] at he; exact hw.slc i m hi (hp i rfl) e he

theorem Inv.shapeAt (hw : Inv F s) {a : Addr} {sh : Shape} (h : s.shapeAt a = some sh) : ShapeOut F sh := by
  unfold St.shapeAt at h
  obtain ⟨b, hb, hs⟩ := Option.bind_eq_some_iff.1 h
  exact hw.base a b sh hb hs

theorem Inv.arrayAt (hw : Inv F s) (a : Addr) : ∀ i, (arrayAt s a).items = some i → ¬ F.D i := by
  unfold GoRaml.arrayAt
  split
  · rename_i f hf; exact hw.shapeAt hf
  · intro x hx; cases hx

theorem Inv.objectAt (hw : Inv F s) (a : Addr) : ∀ i, (objectAt s a).properties = some i → ¬ F.E i := by
  unfold GoRaml.objectAt
  split
  · rename_i f hf; exact hw.shapeAt hf
  · intro x hx; cases hx

theorem Inv.unionAt (hw : Inv F s) (a : Addr) : ∀ i, (unionAt s a).1 = some i → ¬ F.SL i := by
  unfold GoRaml.unionAt
  split
  · rename_i l e hf; exact hw.shapeAt hf
  · intro x hx; cases hx

theorem Ok.setShape {a : Addr} {sh : Shape} (hw : Inv F s) (ha : ¬ F.D a) (h : ShapeOut F sh) : Ok F (setShape a sh) s fun _ _ => True :=
  Ok.upd hw ha (fun _ _ sh' h' => by cases h'; exact h) (fun _ => rfl) (fun _ => rfl)

theorem Ok.setArray {a : Addr} {f : ArrayF} (hw : Inv F s) (ha : ¬ F.D a) (h : ∀ i, f.items = some i → ¬ F.D i) : Ok F (setArray a f) s fun _ _ => True := by
  refine Ok.upd hw ha (fun b hb sh' h' => ?_) (fun b => by split <;> rfl) (fun b => by split <;> rfl)
  split at h'
  · cases h'; exact h
  · exact hw.base a b sh' hb h'

theorem Ok.setObject {a : Addr} {f : ObjectF} (hw : Inv F s) (ha : ¬ F.D a) (h : ∀ i, f.properties = some i → ¬ F.E i) : Ok F (setObject a f) s fun _ _ => True := by
  refine Ok.upd hw ha (fun b hb sh' h' => ?_) (fun b => by split <;> rfl) (fun b => by split <;> rfl)
  split at h'
  · cases h'; exact h
  · exact hw.base a b sh' hb h'

end

/-! ## Cloning -/

/-- The invariant, at least `N` types exist, and the clone map leads outside the family. -/
def CInv (F : Fam) (N : Nat) (t : CSt) : Prop := Inv F t.h ∧ N ≤ t.h.bases.length ∧ ∀ e ∈ t.memo, ¬ F.D e.2

/-- The first `N` types are unchanged. -/
def CRel (N : Nat) (t t' : CSt) : Prop := ∀ x, x < N → t'.h.base x = t.h.base x

theorem CRel.refl {N : Nat} (t : CSt) : CRel N t t := fun _ _ => rfl

theorem CRel.trans {N : Nat} {t u v : CSt} (h : CRel N t u) (k : CRel N u v) : CRel N t v := fun x hx => (k x hx).trans (h x hx)

variable {N : Nat}

/-- `Ok` for cloning functions. -/
abbrev OkC {α : Type} (F : Fam) (N : Nat) (m : M CSt α) (t : CSt) (Q : α → CSt → Prop) : Prop := Safe (fun _ => True) (CInv F N) (CRel N) m t Q

theorem OkC.bind {α β : Type} {m : M CSt α} {f : α → M CSt β} {s : CSt} {Q : α → CSt → Prop} {Q' : β → CSt → Prop} (h1 : OkC F N m s Q)
    (h2 : ∀ x s', CInv F N s' → Q x s' → OkC F N (f x) s' Q') : OkC F N (M.bind m f) s Q' :=
  Safe.bind (I := CInv F N) (R := CRel N) (fun _ _ _ h k => CRel.trans h k) h1 fun x s' h _ => h2 x s' h

theorem OkC.ret {α : Type} {x : α} {s : CSt} {Q : α → CSt → Prop} (hw : CInv F N s) (hq : Q x s) : OkC F N (M.ret x) s Q := Safe.ret (R := CRel N) CRel.refl hw hq

theorem OkC.onHeap {α : Type} {m : M St α} {t : CSt} {Q : α → St → Prop} (hw : CInv F N t) (h : Ok F m t.h Q) (hb : (m t.h).2.bases = t.h.bases) :
    OkC F N (onHeap m) t fun x t' => Q x t'.h := by
  refine ⟨⟨h.1, ?_, hw.2.2⟩, fun x _ => ?_, h.2.2⟩
  · simp only [GoRaml.onHeap, hb]; exact hw.2.1
  · simp only [GoRaml.onHeap, St.base, hb]

/-- What the recursive call of a cloning function does. -/
def CRec (F : Fam) (N : Nat) (rec : Addr → M CSt Addr) : Prop := ∀ a t, CInv F N t → OkC F N (rec a) t fun c _ => ¬ F.D c

section
variable {rec : Addr → M CSt Addr} (hr : CRec F N rec) {t : CSt}
include hr

theorem cloneProps_ok {ps : OMap Property} (hw : CInv F N t) : OkC F N (cloneProps rec ps) t fun ps' _ => ∀ e ∈ ps', ¬ F.D e.2.base :=
  Safe.collect (R := CRel N) CRel.refl (fun _ _ _ h k => CRel.trans h k) (P := fun (e : String × Property) _ => ¬ F.D e.2.base) (fun _ _ _ _ h => h) hw
    fun x _ t' hw' _ => OkC.bind (hr _ _ hw') fun _ _ hw2 hc => OkC.ret hw2 hc

theorem clonePatProps_ok {ps : OMap PatternProperty} (hw : CInv F N t) : OkC F N (clonePatProps rec ps) t fun ps' _ => ∀ e ∈ ps', ¬ F.D e.2.base :=
  Safe.collect (R := CRel N) CRel.refl (fun _ _ _ h k => CRel.trans h k) (P := fun (e : String × PatternProperty) _ => ¬ F.D e.2.base) (fun _ _ _ _ h => h) hw
    fun x _ t' hw' _ => OkC.bind (hr _ _ hw') fun _ _ hw2 hc => OkC.ret hw2 hc

theorem clonePropMap_ok {i : Nat} (hw : CInv F N t) : OkC F N (clonePropMap rec i) t fun j _ => ¬ F.E j :=
  OkC.bind (cloneProps_ok hr hw) fun _ _ hw2 hq => OkC.onHeap hw2 (Ok.newProps hw2.1 hq) rfl

theorem clonePatPropMap_ok {i : Nat} (hw : CInv F N t) : OkC F N (clonePatPropMap rec i) t fun _ _ => True :=
  OkC.bind (clonePatProps_ok hr hw) fun _ _ hw2 hq => OkC.onHeap hw2 (Ok.newPatProps hw2.1 hq) rfl

theorem cloneSlice_ok {i : Option Nat} (hw : CInv F N t) : OkC F N (cloneSlice rec i) t fun j _ => ¬ F.SL j :=
  OkC.bind (Safe.collect (R := CRel N) CRel.refl (fun _ _ _ h k => CRel.trans h k) (P := fun e _ => ¬ F.D e) (fun _ _ _ _ h => h) hw
    fun x _ t' hw' _ => hr _ _ hw') fun _ _ hw2 hq => OkC.onHeap hw2 (Ok.newSlice hw2.1 hq) rfl

omit hr in
theorem optM_ok {α β : Type} {f : α → M CSt β} {o : Option α} {P : β → Prop} (hw : CInv F N t) (h : ∀ a, o = some a → OkC F N (f a) t fun b _ => P b) :
    OkC F N (optM f o) t fun r _ => ∀ b, r = some b → P b := by
  cases o with
  | none => exact OkC.ret hw fun b hb => by cases hb
  | some a => exact OkC.bind (h a rfl) fun b t' hw' hq => OkC.ret hw' fun b' hb' => by cases hb'; exact hq

theorem cloneShape_ok {sh : Shape} (hw : CInv F N t) : OkC F N (cloneShape rec sh) t fun sh' _ => ShapeOut F sh' := by
  cases sh with
  | array f => exact OkC.bind (optM_ok hw fun a _ => hr a t hw) fun items t' hw' hq => OkC.ret hw' hq
  | object f =>
    refine OkC.bind (optM_ok hw fun i _ => clonePropMap_ok hr hw) fun ps t' hw' hq => ?_
    exact OkC.bind (optM_ok (P := fun _ => True) hw' fun i _ => clonePatPropMap_ok hr hw') fun pps t2 hw2 _ => OkC.ret hw2 hq
  | union l e => exact OkC.bind (cloneSlice_ok hr hw) fun i t' hw' hq => OkC.ret hw' fun j hj => by cases hj; exact hq
  | _ => exact OkC.ret hw trivial

theorem cloneLink_ok {i : Nat} (hw : CInv F N t) : OkC F N (cloneLink rec i) t fun _ _ => True := by
  cases hd : t.h.dts[i]? with
  | none => exact Safe.congr (m := M.panic "nil pointer dereference") (by unfold cloneLink; rw [hd]; rfl) ⟨hw, CRel.refl _, trivial⟩
  | some d =>
    cases ha : d.shape with
    | none => exact Safe.congr (m := M.panic "nil pointer dereference") (by unfold cloneLink; rw [hd]; simp only [ha]; rfl) ⟨hw, CRel.refl _, trivial⟩
    | some a =>
      refine Safe.congr (m := M.bind (rec a) fun c => GoRaml.onHeap (Heap.newDT { d with shape := some c })) (by unfold cloneLink; rw [hd]; simp only [ha]) ?_
      exact OkC.bind (hr a t hw) fun c t' hw' hc => OkC.onHeap hw' (Ok.newDT hw'.1) rfl

theorem cloneFill_ok {b : Base} {c : Addr} (hw : CInv F N t) (hc : ¬ F.D c) (hN : N ≤ c) :
    OkC F N (cloneFill rec b c) t fun r _ => ¬ F.D r := by
  refine OkC.bind (OkC.onHeap hw (Ok.newFacets hw.1) rfl) fun fm t1 hw1 q1 => ?_
  refine OkC.bind (Q := fun j _ => True) (OkC.bind (cloneProps_ok hr hw1)
    fun _ _ hw2 hq => Safe.post (OkC.onHeap hw2 (Ok.newProps hw2.1 hq) rfl) fun _ _ _ _ _ => trivial) fun fd t2 hw2 q2 => ?_
  refine OkC.bind (optM_ok hw2 fun a ha => hr a t2 hw2) fun al t3 hw3 q3 => ?_
  refine OkC.bind (optM_ok hw3 fun i _ => cloneSlice_ok hr hw3) fun inh t4 hw4 q4 => ?_
  refine OkC.bind (optM_ok (P := fun _ => True) hw4 fun i hi => cloneLink_ok hr hw4) fun lk t5 hw5 q5 => ?_
  cases hs : b.shape with
  | none => exact ⟨hw5, CRel.refl _, trivial⟩
  | some sh =>
    refine OkC.bind (cloneShape_ok hr hw5) fun sh' t6 hw6 q6 => ?_
    refine OkC.bind (Q := fun _ _ => True) ⟨⟨hw6.1.upd fun _ _ _ h => ?_, ?_, hw6.2.2⟩, fun x hx => ?_, trivial⟩ fun _ t7 hw7 _ => OkC.ret hw7 hc
    · cases h; exact q6
    · simp only [GoRaml.onHeap, Heap.updBase, List.length_modify]; exact hw6.2.1
    · simp only [GoRaml.onHeap, Heap.updBase]
      rw [base_upd]
      have : ¬ c = x := by intro e; subst e; exact absurd hx (Nat.not_lt.2 hN)
      simp [this]

end

theorem clone_ok : ∀ n, CRec F N (clone n)
  | 0 => fun a t hw => Safe.diverge (R := CRel N) CRel.refl hw
  | n + 1 => fun a t hw => by
    refine OkC.bind (OkC.onHeap (Q := fun b s' => s' = t.h ∧ t.h.base a = some b) hw (Ok.getBase hw.1) (by unfold Heap.getBase; cases t.h.base a <;> rfl)) fun b t' hw' hq => ?_
    obtain ⟨he, hb⟩ := hq
    refine Safe.get ?_
    cases hm : memoGet t'.memo b.id with
    | some c =>
      obtain ⟨j, hj⟩ := memoGet_mem hm
      exact OkC.ret hw' (hw'.2.2 _ hj)
    | none =>
      refine OkC.bind (Q := fun c _ => ¬ F.D c ∧ N ≤ c) ?_ fun c t2 hw2 hc => ?_
      · have := Ok.newBase (b := b) hw'.1 fun sh hs => hw'.1.base a b sh (by rw [he]; exact hb) hs
        refine ⟨⟨this.1, ?_, hw'.2.2⟩, fun x hx => ?_, this.2.2, hw'.2.1⟩
        · simp only [GoRaml.onHeap, Heap.newBase, List.length_append]; exact Nat.le_trans hw'.2.1 (Nat.le_add_right _ _)
        · simp only [GoRaml.onHeap, Heap.newBase, St.base]
          exact List.getElem?_append_left (Nat.lt_of_lt_of_le hx hw'.2.1)
      · refine OkC.bind (Q := fun _ t' => True)
          ⟨⟨hw2.1, hw2.2.1, fun e he => (List.mem_cons.1 he).elim (fun h => by rw [h]; exact hc.1) (hw2.2.2 e)⟩, CRel.refl _, trivial⟩ fun _ t3 hw3 _ => ?_
        exact cloneFill_ok (clone_ok n) hw3 hc.1 hc.2

theorem cloneDetached_ok {n : Nat} {a : Addr} {s : St} (hw : Inv F s) : Ok F (cloneDetached n a) s fun c _ => ¬ F.D c := by
  have h := clone_ok (N := s.bases.length) n a ⟨s, []⟩ ⟨hw, Nat.le_refl _, fun _ he => by cases he⟩
  exact ⟨h.1.1, fun x b hb => ⟨b, by rw [← hb]; exact h.2.1 x (List.getElem?_eq_some_iff.1 hb).1, rfl, rfl, fun _ => rfl⟩, h.2.2⟩

/-! ## Inheritance -/

theorem leafInherit_out {t u r : Shape} (h : leafInherit t u = .ok r) : ShapeOut F r := by
  unfold leafInherit at h
  repeat' split at h
  all_goals
    first
    | (cases h; done)
    | (cases h; exact trivial)
    | (obtain ⟨x, hx, h⟩ := out_bind_ok h; cases h; exact trivial)

/-- What the recursive call of an inheriting function does. -/
def IRec (F : Fam) (rec : Addr → Addr → M St Addr) : Prop := ∀ a b s, Inv F s → ¬ F.D a → ¬ F.D b → Ok F (rec a b) s fun c _ => ¬ F.D c

section
variable {rec : Addr → Addr → M St Addr} (hr : IRec F rec) {s : St} {a b : Addr}
include hr

theorem inheritArray_ok (hw : Inv F s) (ha : ¬ F.D a) : Ok F (inheritArray rec a b) s fun _ _ => True := by
  refine Safe.get ?_
  refine Ok.bind (Q := fun _ _ => True) ?_ fun _ s1 hw1 _ _ => ?_
  · split
    · exact Ok.setArray hw ha (hw.arrayAt b)
    · rename_i i j hi hj
      exact Ok.bind (hr i j s hw (hw.arrayAt a i hi) (hw.arrayAt b j hj)) fun _ _ hw' _ _ => Ok.ret hw' trivial
    · exact Ok.ret hw trivial
  · refine Safe.get ?_
    refine Ok.bind (Ok.lift (Q := fun f s' => ∀ i, f.items = some i → ¬ F.D i) hw1
      fun f hf => by rw [bounds_items hf]; exact hw1.arrayAt a) fun f s2 hw2 _ hq => Ok.setArray hw2 ha hq

theorem inheritProp_ok {i : Nat} {kp : String × Property} (hw : Inv F s) (hi : ¬ F.E i) (hk : ¬ F.D kp.2.base) : Ok F (inheritProp rec i kp) s fun _ _ => True := by
  refine Safe.get ?_
  split
  · rename_i tp htp
    obtain ⟨j, hj⟩ := OMap_get_mem htp
    split
    · exact Ok.err hw
    · exact Ok.bind (hr _ _ s hw (hw.propsOf hj) hk) fun _ _ hw' _ _ => Ok.ret hw' trivial
  · exact Ok.setProp hw hi hk

theorem inheritPatProp_ok {i : Nat} {kp : String × PatternProperty} (hw : Inv F s) (hk : ¬ F.D kp.2.base) :
    Ok F (inheritPatProp rec i kp) s fun _ _ => True := by
  refine Safe.get ?_
  split
  · rename_i tp htp
    obtain ⟨j, hj⟩ := OMap_get_mem htp
    exact Ok.bind (hr _ _ s hw (hw.patsOf hj) hk) fun _ _ hw' _ _ => Ok.ret hw' trivial
  · exact Ok.setPatProp hw hk

theorem inheritProperties_ok (hw : Inv F s) (ha : ¬ F.D a) : Ok F (inheritProperties rec a b) s fun _ _ => True := by
  refine Safe.get ?_
  split
  · exact Ok.setObject hw ha (hw.objectAt b)
  · exact Ok.ret hw trivial
  · rename_i i j hi hj
    exact Safe.forEach (R := Rel F) Rel.refl (fun _ _ _ h k => Rel.trans h k) (Q := fun _ => True) (fun _ _ => trivial) hw
      fun x hx s' hw' g => inheritProp_ok hr hw' (hw.objectAt a _ (by assumption)) (hw.propsOf hx)

theorem inheritPatternProperties_ok (hw : Inv F s) (ha : ¬ F.D a) : Ok F (inheritPatternProperties rec a b) s fun _ _ => True := by
  refine Safe.get ?_
  split
  · exact Ok.setObject hw ha (hw.objectAt a)
  · exact Ok.ret hw trivial
  · exact Safe.forEach (R := Rel F) Rel.refl (fun _ _ _ h k => Rel.trans h k) (Q := fun _ => True) (fun _ _ => trivial) hw
      fun x hx s' hw' g => inheritPatProp_ok hr hw' (hw.patsOf hx)

theorem inheritObject_ok (hw : Inv F s) (ha : ¬ F.D a) : Ok F (inheritObject rec a b) s fun _ _ => True := by
  refine Safe.get ?_
  refine Ok.bind (Ok.lift (Q := fun f s' => ∀ i, f.properties = some i → ¬ F.E i) hw
    fun f hf => ?_) fun f s1 hw1 _ hq => ?_
  · obtain ⟨e1, e2, e3⟩ := own_same hf
    rw [e1]; exact hw.objectAt a
  refine Ok.bind (Ok.setObject hw1 ha hq) fun _ s2 hw2 _ _ => ?_
  exact Ok.bind (inheritProperties_ok hr hw2 ha) fun _ s3 hw3 _ _ => inheritPatternProperties_ok hr hw3 ha

theorem inheritClone_ok (hw : Inv F s) (hb : ¬ F.D b) : Ok F (inheritClone rec a b) s fun c _ => ¬ F.D c := by
  refine Safe.get ?_
  refine Ok.bind (cloneDetached_ok hw) fun c s1 hw1 g1 hc => ?_
  refine Ok.bind (Ok.newID hw1) fun id s2 hw2 g2 _ => ?_
  refine Ok.bind (Ok.flag hw2 hc (fun _ => rfl) (fun _ => rfl) (fun _ => rfl)) fun _ s3 hw3 g3 _ => ?_
  exact hr c b s3 hw3 hc hb

theorem inheritMember_ok : ∀ {ts : List Addr} {s : St}, Inv F s → ¬ F.D b →
    Ok F (inheritMember rec b ts) s fun l _ => ∀ c ∈ l, ¬ F.D c
  | [], s, hw, _ => Ok.ret hw fun _ h => by cases h
  | t :: ts, s, hw, hb => by
    unfold inheritMember
    refine Ok.bind (Ok.getBase hw) fun sb s1 hw1 g1 q1 => ?_
    refine Ok.bind (Ok.getBase hw1) fun tb s2 hw2 g2 q2 => ?_
    split
    · refine Ok.bind (Safe.attempt (inheritClone_ok hr hw2 hb)) fun r s3 hw3 g3 q3 => ?_
      refine Ok.bind (inheritMember_ok hw3 hb) fun rest s4 hw4 g4 q4 => ?_
      cases r with
      | ok m => exact Ok.ret hw4 fun c hc => (List.mem_cons.1 hc).elim (fun e => e ▸ (q3 m rfl)) (q4 c)
      | error e => exact Ok.ret hw4 q4
    · exact inheritMember_ok hw2 hb

theorem inheritMembers_ok {ts : List Addr} : ∀ {ss : List Addr} {s : St}, Inv F s → (∀ t ∈ ss, ¬ F.D t) →
    Ok F (inheritMembers rec ts ss) s fun l _ => ∀ c ∈ l, ¬ F.D c
  | [], s, hw, _ => Ok.ret hw fun _ h => by cases h
  | x :: ss, s, hw, hs => by
    unfold inheritMembers
    refine Ok.bind (inheritMember_ok hr hw (hs x (by simp))) fun l s1 hw1 g1 q1 => ?_
    split
    · exact Ok.err hw1
    · refine Ok.bind (inheritMembers_ok hw1 fun t h => hs t (by simp [h])) fun rest s2 hw2 g2 q2 => ?_
      exact Ok.ret hw2 fun c hc => (List.mem_append.1 hc).elim (q1 c) (q2 c)

theorem inheritUnion_ok (hw : Inv F s) (ha : ¬ F.D a) : Ok F (inheritUnion rec a b) s fun _ _ => True := by
  refine Safe.get ?_
  simp only
  split
  · exact Ok.setShape hw ha (hw.unionAt b)
  · refine Ok.bind (inheritMembers_ok hr hw fun t h => hw.sliceOf (hw.unionAt b) h) fun l s1 hw1 g1 q1 => ?_
    refine Ok.bind (Ok.newSlice hw1 q1) fun i s2 hw2 g2 q2 => ?_
    exact Ok.setShape hw2 ha (fun j hj => by cases hj; exact q2)

theorem inheritShape_ok {t u : Shape} (hw : Inv F s) (ha : ¬ F.D a) : Ok F (inheritShape rec a b t u) s fun _ _ => True := by
  unfold inheritShape
  split
  · exact inheritArray_ok hr hw ha
  · exact inheritObject_ok hr hw ha
  · rename_i hd
    refine Ok.bind (Ok.getShape hw) fun sh s1 hw1 _ _ => ?_
    split
    · exact inheritObject_ok hr hw1 ha
    · exact Ok.err hw1
  · exact inheritUnion_ok hr hw ha
  · exact Ok.err hw
  · exact Ok.err hw
  · exact Ok.err hw
  · exact Ok.bind (Ok.lift (Q := fun r _ => ShapeOut F r) hw fun r hr => leafInherit_out hr) fun r s1 hw1 _ q => Ok.setShape hw1 ha q

theorem unionSourceLoop_ok : ∀ {ms : List Addr} {s : St}, Inv F s → (∀ m ∈ ms, ¬ F.D m) →
    Ok F (unionSourceLoop rec a ms) s fun r _ => ∀ l, r = some l → ∀ c ∈ l, ¬ F.D c
  | [], s, hw, _ => Ok.ret hw fun l h c hc => by cases h; cases hc
  | m :: ms, s, hw, hm => by
    unfold unionSourceLoop
    refine Ok.bind (Ok.getBase hw) fun mb s1 hw1 g1 _ => ?_
    split
    · exact Ok.ret hw1 fun l h => by cases h
    · refine Ok.bind (Ok.getBase hw1) fun sb s2 hw2 g2 _ => ?_
      split
      · refine Ok.bind (Safe.attempt (inheritClone_ok hr hw2 (hm m (by simp)))) fun r s3 hw3 g3 q3 => ?_
        refine Ok.bind (unionSourceLoop_ok hw3 fun x hx => hm x (by simp [hx])) fun rest s4 hw4 g4 q4 => ?_
        split
        · rename_i c l
          refine Ok.ret hw4 fun l' h' x hx => ?_
          cases h'
          exact (List.mem_cons.1 hx).elim (fun e => e ▸ q3 c rfl) (q4 l rfl x)
        · rename_i l
          exact Ok.ret hw4 fun l' h' x hx => by cases h'; exact q4 l rfl x hx
        · exact Ok.ret hw4 fun l' h' => by cases h'
      · exact unionSourceLoop_ok hw2 fun x hx => hm x (by simp [hx])

theorem inheritUnionSource_ok {ms : List Addr} (hw : Inv F s) (ha : ¬ F.D a) (hm : ∀ m ∈ ms, ¬ F.D m) :
    Ok F (inheritUnionSource rec a ms) s fun c _ => ¬ F.D c := by
  refine Ok.bind (unionSourceLoop_ok hr hw hm) fun r s1 hw1 g1 q1 => ?_
  split
  · exact Ok.ret hw1 ha
  · exact Ok.err hw1
  · rename_i c; exact Ok.ret hw1 (q1 _ rfl c (by simp))
  · rename_i l _ _
    refine Ok.bind (Ok.newSlice hw1 (q1 l rfl)) fun i s2 hw2 g2 q2 => ?_
    refine Ok.bind (Ok.upd hw2 ha (fun x _ sh hx => ?_) (fun _ => rfl) (fun _ => rfl)) fun _ s3 hw3 g3 _ => Ok.ret hw3 ha
    cases hx
    exact fun j hj => by cases hj; exact q2

theorem unionTargetLoop_ok : ∀ {ms : List Addr} {s : St}, Inv F s → ¬ F.D a → (∀ m ∈ ms, ¬ F.D m) →
    Ok F (unionTargetLoop rec a ms) s fun _ _ => True
  | [], s, hw, _, _ => Ok.ret hw trivial
  | m :: ms, s, hw, ha, hm => by
    unfold unionTargetLoop
    refine Ok.bind (Safe.attempt (hr m a s hw (hm m (by simp)) ha)) fun r s1 hw1 g1 _ => ?_
    refine Ok.bind (unionTargetLoop_ok hw1 ha fun x hx => hm x (by simp [hx])) fun f s2 hw2 _ _ => ?_
    cases r <;> exact Ok.ret hw2 trivial

theorem inheritUnionTarget_ok {ms : List Addr} (hw : Inv F s) (ha : ¬ F.D a) (hm : ∀ m ∈ ms, ¬ F.D m) :
    Ok F (inheritUnionTarget rec a ms) s fun c _ => ¬ F.D c := by
  refine Ok.bind (unionTargetLoop_ok hr hw ha hm) fun f s1 hw1 g1 _ => ?_
  split
  · exact Ok.err hw1
  · exact Ok.ret hw1 ha

omit hr in
theorem Ok.visited {v : Bool} (hw : Inv F s) (ha : ¬ F.D a) : Ok F (Heap.updBase a fun x => { x with visited := v }) s fun _ _ => True :=
  Ok.flag hw ha (fun _ => rfl) (fun _ => rfl) (fun _ => rfl)

theorem inheritDispatch_ok (hw : Inv F s) (ha : ¬ F.D a) (hb : ¬ F.D b) : Ok F (inheritDispatch rec a b) s fun c _ => ¬ F.D c := by
  refine Ok.bind (Ok.getBase hw) fun x s1 hw1 g1 q1 => ?_
  obtain ⟨rfl, hx⟩ := q1
  refine Ok.bind (Ok.getBase hw1) fun y s2 hw2 g2 q2 => ?_
  obtain ⟨rfl, hy⟩ := q2
  have uu : Ok F (M.bind (inheritUnion rec a b) fun _ => M.bind (Heap.updBase b fun x => { x with visited := false }) fun _ => M.ret a) s2
      fun c _ => ¬ F.D c :=
    Ok.bind (inheritUnion_ok hr hw ha) fun _ s3 hw3 g3 _ => Ok.bind (Ok.visited hw3 hb) fun _ s4 hw4 g4 _ => Ok.ret hw4 ha
  cases hu : y.shape with
  | none =>
    cases ht : x.shape with
    | none => exact Ok.panic hw
    | some t =>
      cases t with
      | union l e => exact inheritUnionTarget_ok hr hw ha fun m hm => hw.sliceOf (p := l) (hw.base a x _ hx ht) hm
      | _ => exact Ok.panic hw
  | some u =>
    have last : ∀ t, Ok F (M.bind (inheritShape rec a b t u) fun _ => M.bind (Heap.updBase b fun x => { x with visited := false }) fun _ => M.ret a) s2
        fun c _ => ¬ F.D c := fun t =>
      Ok.bind (inheritShape_ok hr hw ha) fun _ s3 hw3 g3 _ => Ok.bind (Ok.visited hw3 hb) fun _ s4 hw4 g4 _ => Ok.ret hw4 ha
    cases u with
    | any => exact Ok.ret hw ha
    | union l e =>
      have src : Ok F (fun h => inheritUnionSource rec a (h.slice l) h) s2 fun c _ => ¬ F.D c :=
        inheritUnionSource_ok hr hw ha fun m hm => hw.sliceOf (p := l) (hw.base b y _ hy hu) hm
      cases ht : x.shape with
      | none => exact src
      | some t =>
        cases t with
        | union l' e' => exact uu
        | _ => exact src
    | _ =>
      cases ht : x.shape with
      | none => exact Ok.panic hw
      | some t =>
        cases t with
        | union l e => exact inheritUnionTarget_ok hr hw ha fun m hm => hw.sliceOf (p := l) (hw.base a x _ hx ht) hm
        | _ => exact last _

omit hr in
theorem inheritFacets_ok (hw : Inv F s) (ha : ¬ F.D a) : Ok F (inheritFacets a b) s fun _ _ => True := by
  refine Ok.bind (Ok.getBase hw) fun x s1 hw1 g1 q1 => ?_
  obtain ⟨rfl, hx⟩ := q1
  refine Ok.bind (Ok.getBase hw1) fun y s2 hw2 g2 q2 => ?_
  obtain ⟨rfl, hy⟩ := q2
  split
  · exact Ok.flag hw ha (fun _ => rfl) (fun _ => rfl) (fun _ => rfl)
  · exact Ok.ret hw trivial
  · rename_i i j _ _
    refine Safe.forEach (R := Rel F) Rel.refl (fun _ _ _ h k => Rel.trans h k) (Q := fun _ => True) (fun _ _ => trivial) hw fun kv hk s' hw' g => ?_
    unfold Safe inheritFacet
    cases OMap.get (s'.facetMap (some i)) kv.1 with
    | some v => exact ⟨hw', Rel.refl _, trivial⟩
    | none => exact Ok.setFacet hw'

end

theorem inherit_ok : ∀ n, IRec F (inherit n)
  | 0 => fun _ _ _ hw _ _ => Ok.diverge hw
  | n + 1 => fun a b s hw ha hb => by
    refine Ok.bind (Ok.getBase hw) fun x s1 hw1 g1 q1 => ?_
    obtain ⟨rfl, hx⟩ := q1
    refine Ok.bind (Ok.getBase hw1) fun y s2 hw2 g2 q2 => ?_
    obtain ⟨rfl, hy⟩ := q2
    split
    · exact Ok.ret hw hb
    · refine Ok.bind (Ok.visited hw hb) fun _ s3 hw3 g3 _ => ?_
      refine Ok.bind (Ok.flag hw3 ha (fun _ => rfl) (fun _ => rfl) (fun _ => rfl)) fun _ s4 hw4 g4 _ => ?_
      refine Ok.bind (inheritFacets_ok hw4 ha) fun _ s5 hw5 g5 _ => ?_
      exact inheritDispatch_ok (inherit_ok n) hw5 ha hb

end GoRaml.Kin
