import Verif.Lemmas.NarrowObject
import Verif.Lemmas.Clone

/-! What `Inherit` never does, whatever its outcome: entries of property maps are never removed or replaced, pointers of
objects to their maps are never changed once set. -/

namespace GoRaml

open Spec

/-- The relation holds between the states before and after the computation, whatever the outcome. -/
def Keeps {σ α : Type} (R : σ → σ → Prop) (m : M σ α) : Prop := ∀ s, R s (m s).2

section
variable {σ α β : Type} {R : σ → σ → Prop} (hrefl : ∀ s, R s s) (htrans : ∀ a b c, R a b → R b c → R a c)

theorem Keeps.bind {m : M σ α} {f : α → M σ β} (htrans : ∀ a b c, R a b → R b c → R a c) (h1 : Keeps R m)
    (h2 : ∀ a, Keeps R (f a)) : Keeps R (M.bind m f) := by
  intro s
  have := h1 s
  unfold M.bind
  cases hm : m s with
  | mk o s' =>
    rw [hm] at this
    cases o with
    | ok a => exact htrans _ _ _ this (h2 a s')
    | err e => exact this
    | panic e => exact this
    | diverge => exact this

theorem Keeps.attempt {m : M σ α} (h1 : Keeps R m) : Keeps R (M.attempt m) := by
  intro s
  have := h1 s
  unfold M.attempt
  cases hm : m s with
  | mk o s' => rw [hm] at this; cases o <;> exact this

theorem Keeps.forEach {f : α → M σ Unit} (hrefl : ∀ s, R s s) (htrans : ∀ a b c, R a b → R b c → R a c)
    (h1 : ∀ a, Keeps R (f a)) : ∀ l, Keeps R (M.forEach f l)
  | [] => fun s => hrefl s
  | x :: xs => Keeps.bind htrans (h1 x) fun _ => Keeps.forEach hrefl htrans h1 xs

theorem Keeps.collect {f : α → M σ β} (hrefl : ∀ s, R s s) (htrans : ∀ a b c, R a b → R b c → R a c)
    (h1 : ∀ a, Keeps R (f a)) : ∀ l, Keeps R (M.collect f l)
  | [] => fun s => hrefl s
  | x :: xs => Keeps.bind htrans (h1 x) fun _ =>
      Keeps.bind htrans (Keeps.collect hrefl htrans h1 xs) fun _ s => hrefl s

end

/-! ## Cloning -/

/-- Nothing below `lo` changes and nothing allocated is lost. -/
structure AboveOK (lo : Nat) (h h' : St) : Prop where
  le : h.bases.length ≤ h'.bases.length
  bases : ∀ x, x < lo → h'.base x = h.base x
  pmaps : h.pmaps <+: h'.pmaps
  ppmaps : h.ppmaps <+: h'.ppmaps
  slices : h.slices <+: h'.slices

/-- The same, for states in which everything below `lo` is allocated. -/
def Above (lo : Nat) (h h' : St) : Prop := lo ≤ h.bases.length → AboveOK lo h h'

theorem Above.refl (lo : Nat) (h : St) : Above lo h h := fun _ =>
  ⟨le_refl _, fun _ _ => rfl, List.prefix_refl _, List.prefix_refl _, List.prefix_refl _⟩

theorem Above.trans {lo : Nat} {a b c : St} (h1 : Above lo a b) (h2 : Above lo b c) : Above lo a c := fun h =>
  have h1 := h1 h
  have h2 := h2 (h.trans h1.le)
  ⟨h1.le.trans h2.le, fun x hx => (h2.bases x hx).trans (h1.bases x hx),
    h1.pmaps.trans h2.pmaps, h1.ppmaps.trans h2.ppmaps, h1.slices.trans h2.slices⟩

theorem Above.of_unchanged {lo : Nat} {h h' : St} (u : Unchanged h h') : Above lo h h' := by
  refine fun hl => ⟨u.bases.length_le, fun x hx => ?_, u.pmaps, u.ppmaps, u.slices⟩
  have hx' : x < h.bases.length := lt_of_lt_of_le hx hl
  simp only [St.base]
  rw [List.getElem?_eq_getElem hx', List.getElem?_eq_some_iff]
  exact ⟨lt_of_lt_of_le hx' u.bases.length_le, (u.bases.getElem hx').symm⟩

/-- `Above` on cloning states. -/
def CAbove (lo : Nat) (t t' : CSt) : Prop := Above lo t.h t'.h

section
variable {lo : Nat} {rec : Addr → M CSt Addr}

theorem CAbove.rfl' (t : CSt) : CAbove lo t t := Above.refl lo t.h
theorem CAbove.tr (a b c : CSt) (h1 : CAbove lo a b) (h2 : CAbove lo b c) : CAbove lo a c := Above.trans h1 h2

theorem keeps_onHeap {α : Type} {m : M St α} (h1 : Keeps (Above lo) m) : Keeps (CAbove lo) (onHeap m) := fun s => h1 s.h

theorem keeps_ret {σ α : Type} {R : σ → σ → Prop} (hrefl : ∀ s, R s s) (a : α) : Keeps R (M.ret a) := fun s => hrefl s

theorem keeps_opt {σ α β : Type} {R : σ → σ → Prop} (hrefl : ∀ s, R s s) (htrans : ∀ a b c, R a b → R b c → R a c)
    {f : α → M σ β} (h1 : ∀ a, Keeps R (f a)) (p : Option α) : Keeps R (optM f p) := by
  cases p with
  | none => exact keeps_ret hrefl _
  | some a => exact Keeps.bind htrans (h1 a) fun b => keeps_ret hrefl _

theorem above_getBase (a : Addr) : Keeps (Above lo) (Heap.getBase a) := by
  intro h; unfold Heap.getBase; cases h.base a <;> exact Above.refl lo h

theorem above_cloneProps (hr : ∀ a, Keeps (CAbove lo) (rec a)) (ps : OMap Property) :
    Keeps (CAbove lo) (cloneProps rec ps) :=
  Keeps.collect CAbove.rfl' CAbove.tr (fun kp => Keeps.bind CAbove.tr (hr _) fun _ => keeps_ret CAbove.rfl' _) ps

theorem above_clonePatProps (hr : ∀ a, Keeps (CAbove lo) (rec a)) (ps : OMap PatternProperty) :
    Keeps (CAbove lo) (clonePatProps rec ps) :=
  Keeps.collect CAbove.rfl' CAbove.tr (fun kp => Keeps.bind CAbove.tr (hr _) fun _ => keeps_ret CAbove.rfl' _) ps

theorem above_newProps (ps : OMap Property) : Keeps (Above lo) (Heap.newProps ps) := fun h =>
  Above.of_unchanged (unchanged_pmaps h ps)
theorem above_newPatProps (ps : OMap PatternProperty) : Keeps (Above lo) (Heap.newPatProps ps) := fun h =>
  Above.of_unchanged (unchanged_ppmaps h ps)
theorem above_newSlice (l : List Addr) : Keeps (Above lo) (Heap.newSlice l) := fun h =>
  Above.of_unchanged (unchanged_slices h l)
theorem above_newFacets (l : OMap GoVal) : Keeps (Above lo) (Heap.newFacets l) := fun h =>
  Above.of_unchanged (unchanged_fmaps h l)
theorem above_newDT (d : DT) : Keeps (Above lo) (Heap.newDT d) := fun h =>
  Above.of_unchanged (unchanged_dts h d)

theorem above_cloneShape (hr : ∀ a, Keeps (CAbove lo) (rec a)) (s : Shape) : Keeps (CAbove lo) (cloneShape rec s) := by
  cases s with
  | array f => exact Keeps.bind CAbove.tr (keeps_opt CAbove.rfl' CAbove.tr hr _) fun _ => keeps_ret CAbove.rfl' _
  | object f =>
    refine Keeps.bind CAbove.tr (keeps_opt CAbove.rfl' CAbove.tr (fun i => ?_) _) fun _ =>
      Keeps.bind CAbove.tr (keeps_opt CAbove.rfl' CAbove.tr (fun i => ?_) _) fun _ => keeps_ret CAbove.rfl' _
    · intro t
      exact Keeps.bind CAbove.tr (above_cloneProps hr _) (fun ps => keeps_onHeap (above_newProps ps)) t
    · intro t
      exact Keeps.bind CAbove.tr (above_clonePatProps hr _) (fun ps => keeps_onHeap (above_newPatProps ps)) t
  | union l e =>
    refine Keeps.bind CAbove.tr (fun t => ?_) fun _ => keeps_ret CAbove.rfl' _
    exact Keeps.bind CAbove.tr (Keeps.collect CAbove.rfl' CAbove.tr hr _) (fun l => keeps_onHeap (above_newSlice l)) t
  | _ => exact keeps_ret CAbove.rfl' _

theorem above_clone (n : Nat) : ∀ a, Keeps (CAbove lo) (fun t => clone n a t) := by
  induction n with
  | zero => intro a t; exact CAbove.rfl' t
  | succ n ih =>
    intro a t
    have hr : ∀ a, Keeps (CAbove lo) (clone n a) := ih
    simp only [clone]
    refine Keeps.bind CAbove.tr (keeps_onHeap (above_getBase a)) (fun s t => ?_) t
    rw [M.get_bind]
    cases memoGet t.memo s.id with
    | some c => exact CAbove.rfl' t
    | none =>
      -- allocation of the copy; it is filled at the end
      show CAbove lo t (M.bind (onHeap (Heap.newBase s)) (fun c => M.bind (memoPut s.id c) fun _ => cloneFill (clone n) s c) t).2
      rw [M.bind_of_ok (s' := { t with h := (Heap.newBase s t.h).2 }) (show onHeap (Heap.newBase s) t = (.ok t.h.bases.length, _) from rfl)]
      rw [M.bind_of_ok (s' := { h := (Heap.newBase s t.h).2, memo := (s.id, t.h.bases.length) :: t.memo })
        (show memoPut s.id t.h.bases.length _ = (.ok (), _) from rfl)]
      set t1 : CSt := { h := (Heap.newBase s t.h).2, memo := (s.id, t.h.bases.length) :: t.memo } with ht1
      have h1 : CAbove lo t t1 := Above.of_unchanged (unchanged_bases t.h s)
      intro hlo
      refine Above.trans h1 ?_ hlo
      unfold cloneFill
      refine Keeps.bind CAbove.tr (fun t => keeps_onHeap (above_newFacets _) t) (fun fm => ?_) t1
      refine Keeps.bind CAbove.tr (fun t => Keeps.bind CAbove.tr (above_cloneProps hr _)
        (fun ps => keeps_onHeap (above_newProps ps)) t) (fun fd => ?_)
      refine Keeps.bind CAbove.tr (keeps_opt CAbove.rfl' CAbove.tr hr _) fun al => ?_
      refine Keeps.bind CAbove.tr (keeps_opt CAbove.rfl' CAbove.tr (fun i t => ?_) _) fun inh => ?_
      · exact Keeps.bind CAbove.tr (Keeps.collect CAbove.rfl' CAbove.tr hr _) (fun l => keeps_onHeap (above_newSlice l)) t
      refine Keeps.bind CAbove.tr (keeps_opt CAbove.rfl' CAbove.tr (fun i t => ?_) _) fun lk => ?_
      · unfold cloneLink
        split
        · exact CAbove.rfl' t
        · split
          · exact CAbove.rfl' t
          · exact Keeps.bind CAbove.tr (hr _) (fun c => keeps_onHeap (above_newDT _)) t
      cases s.shape with
      | none => exact fun t => CAbove.rfl' t
      | some sh =>
        refine Keeps.bind CAbove.tr (above_cloneShape hr sh) fun sh' => ?_
        refine Keeps.bind CAbove.tr (fun t2 => ?_) fun _ => keeps_ret CAbove.rfl' _
        refine fun hl => ⟨?_, fun x hx => ?_, List.prefix_refl _, List.prefix_refl _, List.prefix_refl _⟩
        · simp [onHeap, Heap.updBase]
        · simp only [onHeap, Heap.updBase, St.base, List.getElem?_modify]
          have : ¬ t.h.bases.length = x := by
            have : x < t.h.bases.length := lt_of_lt_of_le hx hlo
            omega
          simp [this]

end

/-! ## Inheritance -/

theorem Spec.Grown.refl (h : St) : Grown h h :=
  ⟨le_refl _, fun _ ps h => ⟨[], by simpa using h⟩, fun _ ps h => ⟨[], by simpa using h⟩,
    fun _ f h => .inl ⟨f, h, fun _ h => h, fun _ h => h⟩, fun _ l e h => ⟨l, e, h⟩⟩

theorem Spec.Grown.trans {a b c : St} (h1 : Grown a b) (h2 : Grown b c) : Grown a c := by
  refine ⟨h1.bases.trans h2.bases, fun i ps h => ?_, fun i ps h => ?_, fun x f h => ?_, fun x l e h => ?_⟩
  · obtain ⟨m, hm⟩ := h1.props i ps h
    obtain ⟨m', hm'⟩ := h2.props i _ hm
    exact ⟨m ++ m', by rw [hm', List.append_assoc]⟩
  · obtain ⟨m, hm⟩ := h1.patProps i ps h
    obtain ⟨m', hm'⟩ := h2.patProps i _ hm
    exact ⟨m ++ m', by rw [hm', List.append_assoc]⟩
  · rcases h1.objects x f h with ⟨f', hf, hp, hpp⟩ | ⟨l, e, hu⟩
    · rcases h2.objects x f' hf with ⟨f'', hf', hp', hpp'⟩ | hu
      · exact .inl ⟨f'', hf', fun i hi => hp' i (hp i hi), fun i hi => hpp' i (hpp i hi)⟩
      · exact .inr hu
    · exact .inr (h2.unions x l e hu)
  · obtain ⟨l', e', h'⟩ := h1.unions x l e h
    exact h2.unions x l' e' h'

theorem grown_tr (a b c : St) (h1 : Grown a b) (h2 : Grown b c) : Grown a c := h1.trans h2

/-- Heaps with the same bases up to fields other than the shape. -/
theorem grown_of_shapes {h h' : St} (hb : h'.bases.length = h.bases.length) (hp : h'.pmaps = h.pmaps)
    (hpp : h'.ppmaps = h.ppmaps) (hs : ∀ x, h'.shapeAt x = h.shapeAt x) : Grown h h' :=
  ⟨le_of_eq hb.symm, fun i ps h => ⟨[], by simpa [hp] using h⟩, fun i ps h => ⟨[], by simpa [hpp] using h⟩,
    fun x f h => .inl ⟨f, by rw [hs, h], fun _ h => h, fun _ h => h⟩, fun x l e h => ⟨l, e, by rw [hs, h]⟩⟩

theorem shapeAt_updBase (h : St) (a x : Addr) (f : Base → Base) :
    (Heap.updBase a f h).2.shapeAt x = (h.base x).bind fun b => if a = x then (f b).shape else b.shape := by
  simp only [St.shapeAt, Heap.updBase, St.base, List.getElem?_modify]
  cases h.bases[x]? with
  | none => rfl
  | some b => simp only [Option.map_some, Option.bind_some]; split <;> rfl

theorem grown_updBase {a : Addr} {f : Base → Base} (hf : ∀ b, (f b).shape = b.shape) : Keeps Grown (Heap.updBase a f) := by
  intro h
  refine grown_of_shapes (by simp [Heap.updBase]) rfl rfl fun x => ?_
  rw [shapeAt_updBase]
  simp only [St.shapeAt, hf, ite_self]

/-- Assigning a shape to one base. -/
theorem grown_setBase {h h' : St} {a : Addr} (hb : h'.bases.length = h.bases.length) (hp : h'.pmaps = h.pmaps)
    (hpp : h'.ppmaps = h.ppmaps) (hs : ∀ x, x ≠ a → h'.shapeAt x = h.shapeAt x)
    (ho : ∀ f, h.shapeAt a = some (.object f) → (∃ f', h'.shapeAt a = some (.object f') ∧
      (∀ i, f.properties = some i → f'.properties = some i) ∧
      (∀ i, f.patternProperties = some i → f'.patternProperties = some i)) ∨ ∃ l e, h'.shapeAt a = some (.union l e))
    (hu : ∀ l e, h.shapeAt a = some (.union l e) → ∃ l e, h'.shapeAt a = some (.union l e)) : Grown h h' := by
  refine ⟨le_of_eq hb.symm, fun i ps h => ⟨[], by simpa [hp] using h⟩, fun i ps h => ⟨[], by simpa [hpp] using h⟩,
    fun x f hx => ?_, fun x l e hx => ?_⟩
  · by_cases hxa : x = a
    · subst hxa; exact ho f hx
    · exact .inl ⟨f, by rw [hs x hxa, hx], fun _ h => h, fun _ h => h⟩
  · by_cases hxa : x = a
    · subst hxa; exact hu l e hx
    · exact ⟨l, e, by rw [hs x hxa, hx]⟩

theorem grown_updShape {h : St} {a : Addr} {f : Base → Base}
    (ho : ∀ b g, h.base a = some b → b.shape = some (.object g) → (∃ g', (f b).shape = some (.object g') ∧
      (∀ i, g.properties = some i → g'.properties = some i) ∧
      (∀ i, g.patternProperties = some i → g'.patternProperties = some i)) ∨ ∃ l e, (f b).shape = some (.union l e))
    (hu : ∀ b l e, h.base a = some b → b.shape = some (.union l e) → ∃ l e, (f b).shape = some (.union l e)) :
    Grown h (Heap.updBase a f h).2 := by
  refine grown_setBase (a := a) (by simp [Heap.updBase]) rfl rfl (fun x hx => ?_) (fun g hg => ?_) (fun l e hg => ?_)
  · rw [shapeAt_updBase]; simp [St.shapeAt, Ne.symm hx]
  · rw [shapeAt_updBase]
    unfold St.shapeAt at hg
    cases hb : h.base a with
    | none => rw [hb] at hg; cases hg
    | some b => rw [hb] at hg; simpa using ho b g hb hg
  · rw [shapeAt_updBase]
    unfold St.shapeAt at hg
    cases hb : h.base a with
    | none => rw [hb] at hg; cases hg
    | some b => rw [hb] at hg; simpa using hu b l e hb hg

theorem grown_setUnion (a : Addr) (l : Option Nat) (e : Option (List GoVal)) :
    Keeps Grown (setShape a (.union l e)) := fun _ =>
  grown_updShape (fun _ _ _ _ => .inr ⟨l, e, rfl⟩) fun _ _ _ _ _ => ⟨l, e, rfl⟩

theorem grown_setArray (a : Addr) (f : ArrayF) : Keeps Grown (setArray a f) := fun _ =>
  grown_updShape (fun b g _ hg => .inl ⟨g, by simp [hg], fun _ h => h, fun _ h => h⟩)
    fun b l e _ hg => ⟨l, e, by simp [hg]⟩

theorem grown_setObject {h : St} {a : Addr} {f : ObjectF}
    (hp : ∀ i, (objectAt h a).properties = some i → f.properties = some i)
    (hpp : ∀ i, (objectAt h a).patternProperties = some i → f.patternProperties = some i) :
    Grown h (setObject a f h).2 :=
  grown_updShape (fun b g hb hg => .inl ⟨f, by simp [hg], by
      have : objectAt h a = g := objectAt_eq (by simp [St.shapeAt, hb, hg])
      rw [this] at hp; exact hp, by
      have : objectAt h a = g := objectAt_eq (by simp [St.shapeAt, hb, hg])
      rw [this] at hpp; exact hpp⟩)
    fun b l e _ hg => ⟨l, e, by simp [hg]⟩

theorem grown_ret {α : Type} (a : α) : Keeps Grown (M.ret a) := fun h => Grown.refl h
theorem grown_err {α : Type} (e : String) : Keeps Grown (M.err (α := α) e) := fun h => Grown.refl h
theorem grown_panic {α : Type} (e : String) : Keeps Grown (M.panic (α := α) e) := fun h => Grown.refl h
theorem grown_lift {α : Type} (o : Out α) : Keeps Grown (M.lift o) := fun h => Grown.refl h
theorem grown_getBase (a : Addr) : Keeps Grown (Heap.getBase a) := by
  intro h; unfold Heap.getBase; cases h.base a <;> exact Grown.refl h
theorem grown_getShape (a : Addr) : Keeps Grown (Heap.getShape a) := by
  intro h; unfold Heap.getShape; cases h.shapeAt a <;> exact Grown.refl h
theorem grown_newSlice (l : List Addr) : Keeps Grown (Heap.newSlice l) := fun h =>
  grown_of_shapes rfl rfl rfl fun _ => rfl
theorem grown_newID : Keeps Grown Heap.newID := fun h => grown_of_shapes rfl rfl rfl fun _ => rfl

theorem Keeps.tail {σ α β : Type} {R : σ → σ → Prop} {m : M σ α} {f : α → M σ β}
    (htrans : ∀ a b c, R a b → R b c → R a c) (h1 : Keeps R m) (h2 : ∀ a, Keeps R (f a)) (s : σ) :
    R s (M.bind m f s).2 := Keeps.bind htrans h1 h2 s

theorem grown_setProp {h : St} {i : Nat} {k : String} {p : Property} (hg : OMap.get (h.props (some i)) k = none) :
    Grown h (Heap.setProp i k p h).2 := by
  refine ⟨le_refl _, fun j ps hj => ?_, fun j ps hj => ⟨[], by simpa [Heap.setProp] using hj⟩,
    fun x f h => .inl ⟨f, h, fun _ h => h, fun _ h => h⟩, fun x l e h => ⟨l, e, h⟩⟩
  by_cases hij : i = j
  · subst hij
    simp only [St.props, hj, Option.getD_some] at hg
    exact ⟨[(k, p)], by simp [Heap.setProp, List.getElem?_modify, hj, OMap.set_append _ _ _ hg]⟩
  · exact ⟨[], by simp [Heap.setProp, List.getElem?_modify, hij, hj]⟩

theorem grown_setPatProp {h : St} {i : Nat} {k : String} {p : PatternProperty}
    (hg : OMap.get (h.patProps (some i)) k = none) : Grown h (Heap.setPatProp i k p h).2 := by
  refine ⟨le_refl _, fun j ps hj => ⟨[], by simpa [Heap.setPatProp] using hj⟩, fun j ps hj => ?_,
    fun x f h => .inl ⟨f, h, fun _ h => h, fun _ h => h⟩, fun x l e h => ⟨l, e, h⟩⟩
  by_cases hij : i = j
  · subst hij
    simp only [St.patProps, hj, Option.getD_some] at hg
    exact ⟨[(k, p)], by simp [Heap.setPatProp, List.getElem?_modify, hj, OMap.set_append _ _ _ hg]⟩
  · exact ⟨[], by simp [Heap.setPatProp, List.getElem?_modify, hij, hj]⟩

theorem grown_cloneDetached (n : Nat) (a : Addr) : Keeps Grown (cloneDetached n a) := by
  intro h
  have hA := above_clone (lo := h.bases.length) n a ⟨h, []⟩ (le_refl _)
  simp only at hA
  have hs : ∀ x, x < h.bases.length → (cloneDetached n a h).2.shapeAt x = h.shapeAt x := by
    intro x hx
    simp only [St.shapeAt]
    rw [show (cloneDetached n a h).2.base x = h.base x from hA.bases x hx]
  have hlt : ∀ x s, h.shapeAt x = some s → x < h.bases.length := by
    intro x s hx
    by_contra hc
    simp [St.shapeAt, St.base, List.getElem?_eq_none (not_lt.1 hc)] at hx
  refine ⟨hA.le, fun i ps hi => ⟨[], ?_⟩, fun i ps hi => ⟨[], ?_⟩, fun x f hx => .inl ⟨f, ?_, fun _ h => h, fun _ h => h⟩,
    fun x l e hx => ⟨l, e, ?_⟩⟩
  · rw [List.append_nil]
    obtain ⟨t, ht⟩ := hA.pmaps
    show (clone n a ⟨h, []⟩).2.h.pmaps[i]? = _
    rw [← ht, List.getElem?_append_left (List.getElem?_eq_some_iff.1 hi).1, hi]
  · rw [List.append_nil]
    obtain ⟨t, ht⟩ := hA.ppmaps
    show (clone n a ⟨h, []⟩).2.h.ppmaps[i]? = _
    rw [← ht, List.getElem?_append_left (List.getElem?_eq_some_iff.1 hi).1, hi]
  · rw [hs x (hlt x _ hx), hx]
  · rw [hs x (hlt x _ hx), hx]

section
variable {rec : Addr → Addr → M St Addr}

theorem grown_get {α : Type} {f : St → M St α} (h1 : ∀ h, Grown h (f h h).2) : Keeps Grown (M.bind M.get f) := fun h => h1 h

theorem grown_inheritClone (hr : ∀ a b, Keeps Grown (rec a b)) (a b : Addr) : Keeps Grown (inheritClone rec a b) := by
  refine grown_get fun h => ?_
  exact Keeps.tail grown_tr (grown_cloneDetached _ a) (fun c => Keeps.bind grown_tr grown_newID fun id =>
    Keeps.bind grown_tr (grown_updBase (by intro _; rfl)) fun _ => hr c b) h

theorem grown_inheritMember (hr : ∀ a b, Keeps Grown (rec a b)) (s : Addr) : ∀ l, Keeps Grown (inheritMember rec s l)
  | [] => grown_ret _
  | t :: ts => by
    unfold inheritMember
    refine Keeps.bind grown_tr (grown_getBase _) fun sb => Keeps.bind grown_tr (grown_getBase _) fun tb => ?_
    split
    · refine Keeps.bind grown_tr (Keeps.attempt (grown_inheritClone hr _ _)) fun r =>
        Keeps.bind grown_tr (grown_inheritMember hr s ts) fun rest => ?_
      cases r <;> exact grown_ret _
    · exact grown_inheritMember hr s ts

theorem grown_inheritMembers (hr : ∀ a b, Keeps Grown (rec a b)) (ts : List Addr) :
    ∀ l, Keeps Grown (inheritMembers rec ts l)
  | [] => grown_ret _
  | t :: l => by
    unfold inheritMembers
    refine Keeps.bind grown_tr (grown_inheritMember hr t ts) fun fl => ?_
    split
    · exact grown_err _
    · exact Keeps.bind grown_tr (grown_inheritMembers hr ts l) fun _ => grown_ret _

theorem grown_inheritUnion (hr : ∀ a b, Keeps Grown (rec a b)) (a b : Addr) : Keeps Grown (inheritUnion rec a b) := by
  refine grown_get fun h => ?_
  by_cases he : (h.slice (unionAt h a).1).isEmpty = true
  · rw [if_pos he]; exact grown_setUnion _ _ _ h
  · rw [if_neg he]
    exact Keeps.tail grown_tr (grown_inheritMembers hr _ _) (fun l => Keeps.bind grown_tr (grown_newSlice l) fun i =>
      grown_setUnion _ _ _) h

theorem grown_inheritProp (hr : ∀ a b, Keeps Grown (rec a b)) (i : Nat) (kp : String × Property) :
    Keeps Grown (inheritProp rec i kp) := by
  refine grown_get fun h => ?_
  cases hg : OMap.get (h.props (some i)) kp.1 with
  | some tp =>
    dsimp only
    split
    · exact Grown.refl h
    · exact Keeps.tail grown_tr (hr _ _) (fun _ => grown_ret _) h
  | none => exact grown_setProp hg

theorem grown_inheritPatProp (hr : ∀ a b, Keeps Grown (rec a b)) (i : Nat) (kp : String × PatternProperty) :
    Keeps Grown (inheritPatProp rec i kp) := by
  refine grown_get fun h => ?_
  cases hg : OMap.get (h.patProps (some i)) kp.1 with
  | some tp => exact Keeps.tail grown_tr (hr _ _) (fun _ => grown_ret _) h
  | none => exact grown_setPatProp hg

theorem grown_inheritProperties (hr : ∀ a b, Keeps Grown (rec a b)) (a b : Addr) :
    Keeps Grown (inheritProperties rec a b) := by
  refine grown_get fun h => ?_
  cases ha : (objectAt h a).properties with
  | none => exact grown_setObject (fun i hi => by rw [ha] at hi; cases hi) (fun i hi => hi)
  | some i =>
    cases hb : (objectAt h b).properties with
    | none => exact Grown.refl h
    | some j => exact Keeps.forEach Grown.refl grown_tr (grown_inheritProp hr _) _ h

theorem grown_inheritPatternProperties (hr : ∀ a b, Keeps Grown (rec a b)) (a b : Addr) :
    Keeps Grown (inheritPatternProperties rec a b) := by
  refine grown_get fun h => ?_
  cases ha : (objectAt h a).patternProperties with
  | none => exact grown_setObject (fun i hi => hi) (fun i hi => by rw [ha] at hi; cases hi)
  | some i =>
    cases hb : (objectAt h b).patternProperties with
    | none => exact Grown.refl h
    | some j => exact Keeps.forEach Grown.refl grown_tr (grown_inheritPatProp hr _) _ h

theorem grown_inheritObject (hr : ∀ a b, Keeps Grown (rec a b)) (a b : Addr) : Keeps Grown (inheritObject rec a b) := by
  refine grown_get fun h => ?_
  cases ho : (objectAt h a).inheritOwn (objectAt h b) with
  | ok f =>
    rw [M.bind_of_ok (s' := h) (show M.lift (.ok f) h = (.ok f, h) from rfl)]
    obtain ⟨hp, hpp⟩ := inheritOwn_ptrs ho
    refine (grown_setObject (a := a) (f := f) (fun i hi => by rw [hp]; exact hi)
      (fun i hi => by rw [hpp]; exact hi)).trans ?_
    exact Keeps.tail grown_tr (grown_inheritProperties hr a b) (fun _ => grown_inheritPatternProperties hr a b) _
  | err e => exact Grown.refl h
  | panic e => exact Grown.refl h
  | diverge => exact Grown.refl h

theorem grown_inheritArray (hr : ∀ a b, Keeps Grown (rec a b)) (a b : Addr) : Keeps Grown (inheritArray rec a b) := by
  refine grown_get fun h => ?_
  refine Keeps.tail grown_tr ?_ (fun _ => grown_get fun h => Keeps.tail grown_tr (grown_lift _)
    (fun f => grown_setArray a f) h) h
  split
  · exact grown_setArray _ _
  · exact Keeps.bind grown_tr (hr _ _) fun _ => grown_ret _
  · exact grown_ret _

theorem grown_setLeaf {h : St} {a : Addr} {s r : Shape} (hs : h.shapeAt a = some s) (ho : ∀ f, s ≠ .object f)
    (hu : ∀ l e, s ≠ .union l e) : Grown h (setShape a r h).2 :=
  grown_updShape (fun b g hb hg => absurd (by simpa [St.shapeAt, hb, hg] using hs.symm) (ho g))
    fun b l e hb hg => absurd (by simpa [St.shapeAt, hb, hg] using hs.symm) (hu l e)

theorem grown_inheritShape (hr : ∀ a b, Keeps Grown (rec a b)) {h : St} {a b : Addr} {t s : Shape}
    (ht : h.shapeAt a = some t) : Grown h (inheritShape rec a b t s h).2 := by
  have leaf : ∀ o : Out Shape, (∀ f, t ≠ .object f) → (∀ l e, t ≠ .union l e) →
      Grown h (M.bind (M.lift o) (fun r => setShape a r) h).2 := by
    intro o ho hu
    cases o with
    | ok r => exact grown_setLeaf ht ho hu
    | _ => exact Grown.refl h
  unfold inheritShape
  split
  · exact grown_inheritArray hr a b h
  · exact grown_inheritObject hr a b h
  · refine Keeps.tail grown_tr (grown_getShape _) (fun s => ?_) h
    split
    · exact grown_inheritObject hr a _
    · exact grown_err _
  · exact grown_inheritUnion hr a b h
  · exact Grown.refl h
  · exact Grown.refl h
  · exact Grown.refl h
  · rename_i hn1 hn2 hn3 hn4 hn5 hn6 hn7
    refine leaf _ (fun f he => ?_) (fun l e he => ?_)
    · subst he; simp_all
    · subst he; simp_all

theorem grown_unionSourceLoop (hr : ∀ a b, Keeps Grown (rec a b)) (a : Addr) : ∀ l, Keeps Grown (unionSourceLoop rec a l)
  | [] => grown_ret _
  | m :: ms => by
    unfold unionSourceLoop
    refine Keeps.bind grown_tr (grown_getBase _) fun mb => ?_
    split
    · exact grown_ret _
    · refine Keeps.bind grown_tr (grown_getBase _) fun sb => ?_
      split
      · refine Keeps.bind grown_tr (Keeps.attempt (grown_inheritClone hr _ _)) fun r =>
          Keeps.bind grown_tr (grown_unionSourceLoop hr a ms) fun rest => ?_
        split <;> exact grown_ret _
      · exact grown_unionSourceLoop hr a ms

theorem grown_inheritUnionSource (hr : ∀ a b, Keeps Grown (rec a b)) (a : Addr) (l : List Addr) :
    Keeps Grown (inheritUnionSource rec a l) := by
  refine Keeps.bind grown_tr (grown_unionSourceLoop hr a l) fun r => ?_
  split
  · exact grown_ret _
  · exact grown_err _
  · exact grown_ret _
  · refine Keeps.bind grown_tr (grown_newSlice _) fun i => Keeps.bind grown_tr (fun h => ?_) fun _ => grown_ret _
    exact grown_updShape (fun b g _ _ => .inr ⟨some i, none, rfl⟩) fun b l e _ _ => ⟨some i, none, rfl⟩

theorem grown_unionTargetLoop (hr : ∀ a b, Keeps Grown (rec a b)) (a : Addr) : ∀ l, Keeps Grown (unionTargetLoop rec a l)
  | [] => grown_ret _
  | m :: ms => by
    refine Keeps.bind grown_tr (Keeps.attempt (hr m a)) fun r =>
      Keeps.bind grown_tr (grown_unionTargetLoop hr a ms) fun rest => ?_
    cases r <;> exact grown_ret _

theorem grown_inheritUnionTarget (hr : ∀ a b, Keeps Grown (rec a b)) (a : Addr) (l : List Addr) :
    Keeps Grown (inheritUnionTarget rec a l) := by
  refine Keeps.bind grown_tr (grown_unionTargetLoop hr a l) fun r => ?_
  split
  · exact grown_err _
  · exact grown_ret _

theorem grown_inheritFacets (a b : Addr) : Keeps Grown (inheritFacets a b) := by
  refine Keeps.bind grown_tr (grown_getBase _) fun s => Keeps.bind grown_tr (grown_getBase _) fun src => ?_
  split
  · exact grown_updBase fun _ => rfl
  · exact grown_ret _
  · refine fun h => Keeps.forEach Grown.refl grown_tr (fun kv h => ?_) _ h
    unfold inheritFacet
    split
    · exact Grown.refl h
    · exact grown_of_shapes rfl rfl rfl fun _ => rfl

theorem grown_inheritDispatch (hr : ∀ a b, Keeps Grown (rec a b)) (a b : Addr) : Keeps Grown (inheritDispatch rec a b) := by
  have hend : Keeps Grown (M.bind (Heap.updBase b fun x => { x with visited := false }) fun _ => M.ret a) :=
    Keeps.bind grown_tr (grown_updBase fun _ => rfl) fun _ => grown_ret a
  intro h
  unfold inheritDispatch
  cases ha : h.base a with
  | none => simp only [M.bind, Heap.getBase, ha]; exact Grown.refl h
  | some s =>
    rw [M.bind_of_ok (a := s) (s' := h) (by simp [Heap.getBase, ha])]
    cases hb : h.base b with
    | none => simp only [M.bind, Heap.getBase, hb]; exact Grown.refl h
    | some src =>
      rw [M.bind_of_ok (a := src) (s' := h) (by simp [Heap.getBase, hb])]
      have hfin : ∀ source target, s.shape = some target →
          Grown h (M.bind (inheritShape rec a b target source) (fun _ =>
            M.bind (Heap.updBase b fun x => { x with visited := false }) fun _ => M.ret a) h).2 := by
        intro source target hs
        have ht : h.shapeAt a = some target := by simp [St.shapeAt, ha, hs]
        have h1 := grown_inheritShape hr (b := b) (s := source) ht
        cases hrun : inheritShape rec a b target source h with
        | mk o h' =>
          rw [hrun] at h1
          cases o with
          | ok u => rw [M.bind_of_ok hrun]; exact h1.trans (hend h')
          | err e => simp only [M.bind, hrun]; exact h1
          | panic e => simp only [M.bind, hrun]; exact h1
          | diverge => simp only [M.bind, hrun]; exact h1
      have hUU := Keeps.tail grown_tr (grown_inheritUnion hr a b) (fun _ => hend) h
      cases hS : src.shape with
      | none =>
        cases hT : s.shape with
        | none => exact Grown.refl h
        | some t => cases t <;> first | exact Grown.refl h | exact grown_inheritUnionTarget hr a _ h
      | some sh =>
        cases hT : s.shape with
        | none => cases sh <;> first | exact Grown.refl h | exact grown_inheritUnionSource hr a _ h
        | some t =>
          by_cases hu : ∃ l e, t = .union l e
          · obtain ⟨l, e, rfl⟩ := hu
            cases sh <;> first | exact Grown.refl h | exact hUU | exact grown_inheritUnionTarget hr a _ h
          · cases sh with
            | any => exact Grown.refl h
            | union l e =>
              cases t with
              | union l e => exact absurd ⟨l, e, rfl⟩ hu
              | _ => exact grown_inheritUnionSource hr a _ h
            | _ =>
              cases t with
              | union l e => exact absurd ⟨l, e, rfl⟩ hu
              | _ => exact hfin _ _ hT

end

/-- Whatever the outcome of `Inherit`, nothing declared is lost. -/
theorem grown_inherit : ∀ n a b, Keeps Grown (inherit n a b)
  | 0, _, _ => fun h => Grown.refl h
  | n + 1, a, b => by
    unfold inherit
    refine Keeps.bind grown_tr (grown_getBase _) fun s => Keeps.bind grown_tr (grown_getBase _) fun src => ?_
    split
    · exact grown_ret _
    · exact Keeps.bind grown_tr (grown_updBase fun _ => rfl) fun _ =>
        Keeps.bind grown_tr (grown_updBase fun _ => rfl) fun _ =>
        Keeps.bind grown_tr (grown_inheritFacets a b) fun _ => grown_inheritDispatch (grown_inherit n) a b

end GoRaml
