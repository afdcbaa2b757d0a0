import Verif.Lemmas.Embed

/-!
# Cloning does not depend on where its data lies, and it always comes to an end
-/

namespace GoRaml.Emb

open GoRaml

namespace Place

variable {e : Place}

/-- Placing a heap and the clone map. -/
def cat (e : Place) : Sim CSt CSt := ⟨fun t => ⟨e.embed t.h, t.memo.map fun x => (e.num x.1, e.sb x.2)⟩, fun t => e.c0 ≤ t.h.idCounter⟩

theorem memoGet_com (m : List (Int × Addr)) (i : Int) : memoGet (m.map fun x => (e.num x.1, e.sb x.2)) (e.num i) = (memoGet m i).map e.sb := by
  induction m with
  | nil => rfl
  | cons x m ih =>
    obtain ⟨j, c⟩ := x
    simp only [List.map_cons, memoGet, num_inj]
    split
    · rfl
    · exact ih

theorem onHeap_com {α β : Type} {g : α → β} {m : M St α} {m' : M St β} {t : CSt} (h : Com e.at' g m m' t.h) :
    Com e.cat g (onHeap m) (onHeap m') t := by
  intro hi
  obtain ⟨h1, h2⟩ := h hi
  refine ⟨?_, h2⟩
  have h3 : m' (e.embed t.h) = _ := h1
  simp only [onHeap, cat, h3]
  rfl

theorem memoPut_com (i : Int) (c : Addr) {t : CSt} : Com e.cat id (memoPut i c) (memoPut (e.num i) (e.sb c)) t :=
  fun hi => ⟨rfl, hi⟩

section
variable {rec rec' : Addr → M CSt Addr} (hr : ∀ a t, Com e.cat e.sb (rec a) (rec' (e.sb a)) t)
include hr

theorem cloneProps_com (ps : OMap Property) (t : CSt) : Com e.cat e.props (cloneProps rec ps) (cloneProps rec' (e.props ps)) t :=
  Com.collect (q := fun x : String × Property => (x.1, e.prop x.2)) (g := fun x : String × Property => (x.1, e.prop x.2))
    (fun x t => by refine Com.bind (hr x.2.base t) ?_; intro _ _; exact Com.ret rfl) ps t

theorem clonePatProps_com (ps : OMap PatternProperty) (t : CSt) : Com e.cat e.pats (clonePatProps rec ps) (clonePatProps rec' (e.pats ps)) t :=
  Com.collect (q := fun x : String × PatternProperty => (x.1, e.pat x.2)) (g := fun x : String × PatternProperty => (x.1, e.pat x.2))
    (fun x t => by refine Com.bind (hr x.2.base t) ?_; intro _ _; exact Com.ret rfl) ps t

theorem clonePropMap_com (i : Nat) (t : CSt) : Com e.cat e.sp (clonePropMap rec i) (clonePropMap rec' (e.sp i)) t := by
  have := (cloneProps_com hr (t.h.props (some i)) t).bind (f := fun ps => onHeap (Heap.newProps ps)) (f' := fun ps => onHeap (Heap.newProps ps))
    (k := e.sp) fun x s' => onHeap_com (newProps_com rfl)
  intro hi
  have h := this hi
  rw [← props_embed e t.h (some i)] at h
  exact h

theorem clonePatPropMap_com (i : Nat) (t : CSt) : Com e.cat e.sq (clonePatPropMap rec i) (clonePatPropMap rec' (e.sq i)) t := by
  have := (clonePatProps_com hr (t.h.patProps (some i)) t).bind (f := fun ps => onHeap (Heap.newPatProps ps)) (f' := fun ps => onHeap (Heap.newPatProps ps))
    (k := e.sq) fun x s' => onHeap_com (newPatProps_com rfl)
  intro hi
  have h := this hi
  rw [← patProps_embed e t.h (some i)] at h
  exact h

theorem cloneSlice_com (i : Option Nat) (t : CSt) : Com e.cat e.ss (cloneSlice rec i) (cloneSlice rec' (i.map e.ss)) t := by
  have := (Com.collect hr (t.h.slice i) t).bind (f := fun ps => onHeap (Heap.newSlice ps)) (f' := fun ps => onHeap (Heap.newSlice ps))
    (k := e.ss) fun x s' => onHeap_com (newSlice_com rfl)
  intro hi
  have h := this hi
  rw [← slice_embed e t.h i] at h
  exact h

theorem cloneShape_com (s : Shape) (t : CSt) : Com e.cat e.shape (cloneShape rec s) (cloneShape rec' (e.shape s)) t := by
  cases s with
  | array f => exact (Com.optM hr f.items t).bind fun _ _ => Com.ret rfl
  | object f =>
    exact (Com.optM (clonePropMap_com hr) f.properties t).bind fun _ t' =>
      (Com.optM (clonePatPropMap_com hr) f.patternProperties t').bind fun _ _ => Com.ret rfl
  | union l e => exact (cloneSlice_com hr l t).bind fun _ _ => Com.ret rfl
  | _ => exact Com.ret rfl

theorem cloneLink_com (i : Nat) (t : CSt) : Com e.cat e.sd (cloneLink rec i) (cloneLink rec' (e.sd i)) t := by
  unfold Com cloneLink
  simp only [show (e.cat.map t).h = e.embed t.h from rfl, dts_embed]
  cases t.h.dts[i]? with
  | none => exact fun hi => ⟨rfl, hi⟩
  | some d =>
    simp only [Option.map_some, dt]
    cases hd : d.shape with
    | none => exact fun hi => ⟨rfl, hi⟩
    | some a =>
      exact Com.bind (hr a t) (fun c t' => onHeap_com (newDT_com (by simp [dt])))

theorem cloneFill_com (s : Base) (c : Addr) (t : CSt) : Com e.cat e.sb (cloneFill rec s c) (cloneFill rec' (e.base s) (e.sb c)) t := by
  refine Com.bind (g := e.sf) ?_ fun fm t1 => Com.bind (g := e.sp) ?_ fun fd t2 => Com.bind (Com.optM hr s.alias t2) fun al t3 =>
    Com.bind (g := Option.map e.ss) ?_ fun inh t4 => Com.bind (Com.optM (cloneLink_com hr) s.link t4) fun ln t5 => ?_
  · exact onHeap_com (m := Heap.newFacets (t.h.facetMap s.facets)) (newFacets_com (facetMap_embed e t.h s.facets))
  · have h := (cloneProps_com hr (t1.h.props s.facetDefs) t1).bind (f := fun ps => onHeap (Heap.newProps ps)) (f' := fun ps => onHeap (Heap.newProps ps))
      (k := e.sp) fun x s' => onHeap_com (newProps_com rfl)
    rw [← props_embed e t1.h s.facetDefs] at h
    exact h
  · exact Com.optM (q := e.ss) (f' := fun i => cloneSlice rec' (some i)) (fun i t => cloneSlice_com hr (some i) t) s.inherits t3
  · simp only [base]
    cases hs : s.shape with
    | none => exact Com.panic
    | some sh =>
      exact Com.bind (cloneShape_com hr sh t5) fun sh' t6 => Com.bind (g := id) (onHeap_com (updBase_com c fun b => by simp [base])) fun _ _ => Com.ret rfl

end

theorem clone_com : ∀ (n : Nat) (a : Addr) (t : CSt), Com e.cat e.sb (clone n a) (clone n (e.sb a)) t
  | 0, _, _ => Com.diverge
  | n + 1, a, t => by
    unfold clone
    refine Com.bind (onHeap_com (getBase_com a)) fun s t1 => Com.get ?_
    simp only [show (e.cat.map t1).memo = t1.memo.map fun x => (e.num x.1, e.sb x.2) from rfl, show (e.base s).id = e.num s.id from rfl, memoGet_com]
    cases memoGet t1.memo s.id with
    | some c => exact Com.ret rfl
    | none =>
      exact Com.bind (onHeap_com (newBase_com rfl)) fun c t2 => Com.bind (memoPut_com s.id c) fun _ t3 =>
        cloneFill_com (fun a t => clone_com n a t) s c t3

theorem cloneDetached_com (n : Nat) (a : Addr) (s : St) : Com e.at' e.sb (cloneDetached n a) (cloneDetached n (e.sb a)) s := by
  intro hi
  have h := clone_com (e := e) n a ⟨s, []⟩ hi
  refine ⟨?_, h.2⟩
  have h1 : clone n (e.sb a) ⟨e.embed s, []⟩ = _ := h.1
  simp only [cloneDetached, at', h1]
  rfl

end Place

/-! ## Cloning ends -/

/-- Types beyond the first `k` are copies, whose IDs are in the clone map; so are the IDs in `I`. -/
structure Run (k : Nat) (ids : List Int) (I : Int → Prop) (t : CSt) : Prop where
  first : (t.h.bases.take k).map (·.id) = ids
  later : ∀ a b, k ≤ a → t.h.base a = some b → (memoGet t.memo b.id).isSome
  known : ∀ i, I i → (memoGet t.memo i).isSome
  long : k ≤ t.h.bases.length

/-- How many IDs are not in the clone map. -/
def missing (ids : List Int) (memo : List (Int × Addr)) : Nat := (ids.filter fun i => (memoGet memo i).isNone).length

variable {k : Nat} {ids : List Int} {I : Int → Prop} {N : Nat}

/-- `m` comes to an end when fewer than `N` IDs are missing. -/
def Ends (k : Nat) (ids : List Int) (I : Int → Prop) (N : Nat) {α : Type} (m : M CSt α) (t : CSt) : Prop :=
  Run k ids I t → missing ids t.memo < N →
    (m t).1 ≠ .diverge ∧ ∀ x, (m t).1 = .ok x → Run k ids I (m t).2 ∧ missing ids (m t).2.memo ≤ missing ids t.memo

theorem Ends.ret {α : Type} {x : α} {t : CSt} : Ends k ids I N (M.ret x) t := fun h _ => ⟨fun h => (by cases h), fun _ _ => ⟨h, Nat.le_refl _⟩⟩

theorem Ends.panic {α : Type} {e : String} {t : CSt} : Ends k ids I N (M.panic (α := α) e) t := fun _ _ => ⟨fun h => (by cases h), fun _ h => (by cases h)⟩

theorem Ends.bind {α β : Type} {m : M CSt α} {f : α → M CSt β} {t : CSt} (h : Ends k ids I N m t) (hf : ∀ x t', Ends k ids I N (f x) t') :
    Ends k ids I N (M.bind m f) t := by
  intro hr hl
  obtain ⟨h1, h2⟩ := h hr hl
  unfold M.bind
  cases hm : m t with
  | mk o t' =>
    rw [hm] at h1 h2
    cases o with
    | ok x =>
      obtain ⟨h3, h4⟩ := h2 x rfl
      obtain ⟨h5, h6⟩ := hf x t' h3 (Nat.lt_of_le_of_lt h4 hl)
      exact ⟨h5, fun y hy => ⟨(h6 y hy).1, Nat.le_trans (h6 y hy).2 h4⟩⟩
    | diverge => exact absurd rfl h1
    | _ => exact ⟨fun h => (by cases h), fun _ h => (by cases h)⟩

theorem Ends.collect {α β : Type} {f : α → M CSt β} (h : ∀ x t, Ends k ids I N (f x) t) : ∀ (l : List α) (t : CSt), Ends k ids I N (M.collect f l) t
  | [], _ => .ret
  | x :: xs, t => (h x t).bind fun _ t' => (Ends.collect h xs t').bind fun _ _ => .ret

theorem Ends.optM {α β : Type} {f : α → M CSt β} (h : ∀ x t, Ends k ids I N (f x) t) (o : Option α) (t : CSt) : Ends k ids I N (GoRaml.optM f o) t := by
  cases o with
  | none => exact .ret
  | some x => exact (h x t).bind fun _ _ => .ret

/-- A heap operation that leaves the types alone. -/
theorem Ends.heap {α : Type} {m : M St α} {t : CSt} (h : (m t.h).1 ≠ .diverge) (hb : (m t.h).2.bases = t.h.bases) : Ends k ids I N (onHeap m) t := by
  intro hr _
  refine ⟨h, fun _ _ => ⟨⟨?_, ?_, hr.known, ?_⟩, Nat.le_refl _⟩⟩
  · simp only [onHeap, hb]; exact hr.first
  · intro a b hk hab
    exact hr.later a b hk (by simpa only [onHeap, St.base, hb] using hab)
  · simp only [onHeap, hb]; exact hr.long

section
variable {rec : Addr → M CSt Addr} (hr : ∀ a t, Ends k ids I N (rec a) t)
include hr

theorem cloneProps_ends (ps : OMap Property) (t : CSt) : Ends k ids I N (cloneProps rec ps) t :=
  .collect (fun _ t => (hr _ t).bind fun _ _ => .ret) ps t

theorem clonePatProps_ends (ps : OMap PatternProperty) (t : CSt) : Ends k ids I N (clonePatProps rec ps) t :=
  .collect (fun _ t => (hr _ t).bind fun _ _ => .ret) ps t

theorem clonePropMap_ends (i : Nat) (t : CSt) : Ends k ids I N (clonePropMap rec i) t :=
  (cloneProps_ends hr (t.h.props (some i)) t).bind fun _ _ => .heap (fun h => (by cases h)) rfl

theorem clonePatPropMap_ends (i : Nat) (t : CSt) : Ends k ids I N (clonePatPropMap rec i) t :=
  (clonePatProps_ends hr (t.h.patProps (some i)) t).bind fun _ _ => .heap (fun h => (by cases h)) rfl

theorem cloneSlice_ends (i : Option Nat) (t : CSt) : Ends k ids I N (cloneSlice rec i) t :=
  (Ends.collect hr (t.h.slice i) t).bind fun _ _ => .heap (fun h => (by cases h)) rfl

theorem cloneShape_ends (s : Shape) (t : CSt) : Ends k ids I N (cloneShape rec s) t := by
  cases s with
  | array f => exact (Ends.optM hr f.items t).bind fun _ _ => .ret
  | object f =>
    exact (Ends.optM (clonePropMap_ends hr) f.properties t).bind fun _ t' => (Ends.optM (clonePatPropMap_ends hr) f.patternProperties t').bind fun _ _ => .ret
  | union l e => exact (cloneSlice_ends hr l t).bind fun _ _ => .ret
  | _ => exact .ret

theorem cloneLink_ends (i : Nat) (t : CSt) : Ends k ids I N (cloneLink rec i) t := by
  unfold Ends cloneLink
  cases t.h.dts[i]? with
  | none => exact Ends.panic
  | some d =>
    cases hd : d.shape with
    | none => simp only [hd]; exact Ends.panic
    | some a => simp only [hd]; exact (hr a t).bind fun _ _ => .heap (fun h => (by cases h)) rfl

theorem cloneFill_ends {s : Base} (hs : I s.id) {c : Addr} (hc : k ≤ c) (t : CSt) : Ends k ids I N (cloneFill rec s c) t := by
  refine Ends.bind (.heap (fun h => (by cases h)) rfl) fun _ t1 =>
    Ends.bind ((cloneProps_ends hr (t1.h.props s.facetDefs) t1).bind fun _ _ => .heap (fun h => (by cases h)) rfl) fun _ t2 =>
    (Ends.optM hr _ t2).bind fun _ t3 => (Ends.optM (fun i t => cloneSlice_ends hr (some i) t) _ t3).bind fun _ t4 =>
    (Ends.optM (cloneLink_ends hr) _ t4).bind fun _ t5 => ?_
  cases s.shape with
  | none => exact .panic
  | some sh =>
    refine (cloneShape_ends hr sh t5).bind fun _ t6 => Ends.bind ?_ fun _ _ => .ret
    intro h _
    refine ⟨fun h => (by cases h), fun _ _ => ⟨⟨?_, ?_, h.known, ?_⟩, Nat.le_refl _⟩⟩
    · rw [← h.first]
      congr 1
      apply List.ext_getElem?
      intro j
      simp only [onHeap, Heap.updBase, List.getElem?_take, List.getElem?_modify]
      split
      · rename_i hj
        have : c ≠ j := by unfold Addr at *; omega
        simp [this]
      · rfl
    · intro a b hk hab
      simp only [onHeap, Heap.updBase, St.base, List.getElem?_modify] at hab ⊢
      by_cases h2 : c = a
      · subst h2
        simp at hab
        obtain ⟨_, _, rfl⟩ := hab
        exact h.known _ hs
      · simp [h2] at hab
        exact h.later a b hk hab
    · simp only [onHeap, Heap.updBase, List.length_modify]; exact h.long

end

theorem missing_cons (i : Int) (c : Addr) (memo : List (Int × Addr)) (hi : i ∈ ids) (hm : memoGet memo i = none) :
    missing ids ((i, c) :: memo) < missing ids memo := by
  unfold missing
  have hle : ∀ l : List Int, (l.filter fun j => (memoGet ((i, c) :: memo) j).isNone).length ≤ (l.filter fun j => (memoGet memo j).isNone).length := by
    intro l
    induction l with
    | nil => exact Nat.le_refl _
    | cons x l ih =>
      have hx : (memoGet ((i, c) :: memo) x).isNone → (memoGet memo x).isNone := by
        intro hj
        simp only [memoGet] at hj
        split at hj
        · simp at hj
        · exact hj
      simp only [List.filter_cons]
      split
      · rename_i h1
        rw [if_pos (hx h1)]
        simp only [List.length_cons]; omega
      · split
        · simp only [List.length_cons]; omega
        · exact ih
  obtain ⟨l1, l2, rfl⟩ := List.append_of_mem hi
  simp only [List.filter_append, List.length_append, List.filter_cons]
  have h1 : (memoGet ((i, c) :: memo) i).isNone = false := by simp [memoGet]
  rw [h1, hm]
  have := hle l1
  have := hle l2
  simp only [Option.isNone_none, if_true, List.length_cons, Bool.false_eq_true, if_false]
  omega

theorem clone_ends : ∀ (n : Nat) (I : Int → Prop) (a : Addr) (t : CSt), Ends k ids I n (clone n a) t
  | 0, _, _, _ => fun _ h => absurd h (by omega)
  | n + 1, I, a, t => by
    intro hr hl
    unfold clone
    simp only [M.bind, onHeap, Heap.getBase]
    cases hb : t.h.base a with
    | none => exact ⟨fun h => (by cases h), fun _ h => (by cases h)⟩
    | some s =>
      simp only [M.get]
      cases hm : memoGet t.memo s.id with
      | some c => exact ⟨fun h => (by cases h), fun _ _ => ⟨hr, Nat.le_refl _⟩⟩
      | none =>
        have hak : a < k := by
          refine Classical.byContradiction fun h => ?_
          have := hr.later a s (Nat.le_of_not_lt h) hb
          rw [hm] at this; cases this
        have hid : s.id ∈ ids := by
          rw [← hr.first]
          refine List.mem_map.2 ⟨s, ?_, rfl⟩
          refine List.mem_iff_getElem?.2 ⟨a, ?_⟩
          rw [List.getElem?_take, if_pos hak]; exact hb
        let t' : CSt := ⟨{ t.h with bases := t.h.bases ++ [s] }, (s.id, t.h.bases.length) :: t.memo⟩
        have hg : ∀ i, (memoGet t.memo i).isSome → (memoGet t'.memo i).isSome := by
          intro i hi
          simp only [t', memoGet]
          split
          · rfl
          · exact hi
        have hself : (memoGet t'.memo s.id).isSome := by simp [t', memoGet]
        have hr' : Run k ids (fun i => I i ∨ i = s.id) t' := by
          refine ⟨?_, ?_, ?_, ?_⟩
          · simp only [t']; rw [List.take_append_of_le_length hr.long]; exact hr.first
          · intro x b hk hx
            simp only [t', St.base] at hx
            by_cases h2 : x < t.h.bases.length
            · rw [List.getElem?_append_left h2] at hx
              exact hg _ (hr.later x b hk hx)
            · rw [List.getElem?_append_right (by omega)] at hx
              have : b = s := by
                have hmem := List.mem_of_getElem? hx
                simpa using hmem
              subst this; exact hself
          · rintro i (hi | rfl)
            · exact hg _ (hr.known i hi)
            · exact hself
          · simp only [t', List.length_append]; have := hr.long; omega
        have hlt : missing ids t'.memo < missing ids t.memo := missing_cons _ _ _ hid hm
        obtain ⟨h1, h2⟩ := cloneFill_ends (N := n) (fun a t => clone_ends n _ a t) (s := s) (c := t.h.bases.length) (Or.inr rfl) hr.long t' hr'
          (by omega)
        refine ⟨h1, fun x hx => ?_⟩
        obtain ⟨h3, h4⟩ := h2 x hx
        exact ⟨⟨h3.first, h3.later, fun i hi => h3.known i (Or.inl hi), h3.long⟩, by
          have h5 : missing ids (cloneFill (clone n) s t.h.bases.length t').2.memo ≤ missing ids t'.memo := h4
          show missing ids (cloneFill (clone n) s t.h.bases.length t').2.memo ≤ missing ids t.memo
          omega⟩

/-- A clone with more fuel than there are types always comes to an end. -/
theorem cloneDetached_ends {n : Nat} (a : Addr) {s : St} (hn : s.bases.length < n) : (cloneDetached n a s).1 ≠ .diverge := by
  refine (clone_ends (k := s.bases.length) (ids := s.bases.map (·.id)) n (fun _ => False) a ⟨s, []⟩ ⟨?_, ?_, fun _ h => h.elim, Nat.le_refl _⟩ ?_).1
  · simp
  · intro x b hk hx
    have : x < s.bases.length := by
      refine Classical.byContradiction fun h => ?_
      simp [St.base, List.getElem?_eq_none (Nat.le_of_not_lt h)] at hx
    exact absurd this (Nat.not_lt.2 hk)
  · refine Nat.lt_of_le_of_lt (List.length_filter_le _ _) ?_
    simpa using hn

/-- Cloning in the place of a heap with fuel of its own. -/
theorem Place.cloneOwn_com {e : Place} (a : Addr) (s : St) :
    Com e.at' e.sb (fun h => cloneDetached (h.bases.length + 1) a h) (fun h => cloneDetached (h.bases.length + 1) (e.sb a) h) s := by
  intro hi
  obtain ⟨h1, h2⟩ := Place.cloneDetached_com (e := e) (s.bases.length + 1) a s hi
  refine ⟨?_, h2⟩
  have hd : (cloneDetached (s.bases.length + 1) (e.sb a) (e.embed s)).1 ≠ .diverge := by
    have h3 : cloneDetached (s.bases.length + 1) (e.sb a) (e.embed s) = _ := h1
    rw [h3]
    have := cloneDetached_ends a (s := s) (n := s.bases.length + 1) (by omega)
    revert this
    cases (cloneDetached (s.bases.length + 1) a s).1 <;> simp [out]
  have := Fuel.cloneDetached_at (n := s.bases.length + 1) (m := (e.embed s).bases.length + 1) (by simp [Place.embed]) (e.sb a) (e.embed s) hd
  show cloneDetached ((e.embed s).bases.length + 1) (e.sb a) (e.embed s) = _
  rw [this]
  exact h1

end GoRaml.Emb
