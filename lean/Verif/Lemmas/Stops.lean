import Verif.Model.UnwrapAll
import Mathlib.Data.List.Forall2

/-!
# Runs that stop: types without unions and custom facets (C79)
-/

namespace GoRaml.Stops

open GoRaml

/-- Maps that may be facet definitions, and maps that stay empty. -/
structure Zone where
  defs : Nat → Prop
  empty : Nat → Prop

/-- Either facet definitions are empty, or nothing is known of them. -/
def Zone.Fair (D : Zone) : Prop := (∀ i, D.defs i → D.empty i) ∨ ∀ i, D.defs i ∧ ¬ D.empty i

/-- Nothing is known of facet definitions. -/
def Zone.free : Zone := ⟨fun _ => True, fun _ => False⟩

/-- No type is a union, and the maps in `D.empty` are empty; facet definitions are in `D.defs`, properties are not in `D.empty`. -/
structure Inv (D : Zone) (s : St) : Prop where
  plain : ∀ a b u e, s.base a = some b → b.shape ≠ some (.union u e)
  defs : ∀ a b i, s.base a = some b → b.facetDefs = some i → D.defs i
  props : ∀ a b f i, s.base a = some b → b.shape = some (.object f) → f.properties = some i → ¬ D.empty i
  none : ∀ i, D.empty i → s.props (some i) = []

/-- Flags are not taken back. -/
structure Step (s s' : St) : Prop where
  len : s'.bases.length = s.bases.length
  flags : ∀ x b b', s.base x = some b → s'.base x = some b' → (b.unwrapped = true → b'.unwrapped = true) ∧ (b.visited = true → b'.visited = true)

theorem Step.refl (s : St) : Step s s := ⟨rfl, fun _ _ _ h h' => by rw [h] at h'; cases h'; exact ⟨id, id⟩⟩

theorem base_len {s : St} {x : Addr} {b : Base} (h : s.base x = some b) : x < s.bases.length := (List.getElem?_eq_some_iff.1 h).1

theorem Step.there {s s' : St} (p : Step s s') {x : Addr} {b : Base} (h : s.base x = some b) : ∃ b', s'.base x = some b' :=
  ⟨_, List.getElem?_eq_getElem (p.len ▸ base_len h)⟩

theorem Step.back {s s' : St} (p : Step s s') {x : Addr} {b : Base} (h : s'.base x = some b) : ∃ b', s.base x = some b' :=
  ⟨_, List.getElem?_eq_getElem (p.len ▸ base_len h)⟩

theorem Step.trans {s s' s'' : St} (p : Step s s') (q : Step s' s'') : Step s s'' :=
  ⟨q.len.trans p.len, fun x b b'' h h'' => by
    obtain ⟨b', h'⟩ := p.there h
    have k1 := p.flags x b b' h h'
    have k2 := q.flags x b' b'' h' h''
    exact ⟨fun k => k2.1 (k1.1 k), fun k => k2.2 (k1.2 k)⟩⟩

/-- The number of types that are not unwrapped. -/
def wrapped (s : St) : Nat := s.bases.countP fun b => !b.unwrapped

/-- The number of types that are not being inherited from. -/
def unseen (s : St) : Nat := s.bases.countP fun b => !b.visited

theorem countP_le_of {p : Base → Bool} : ∀ {l l' : List Base}, List.Forall₂ (fun b b' => p b' = true → p b = true) l l' → l'.countP p ≤ l.countP p
  | _, _, .nil => Nat.le_refl _
  | b :: l, b' :: l', .cons h t => by
    have := countP_le_of t
    rw [List.countP_cons, List.countP_cons]
    by_cases hb : p b' = true
    · simp [hb, h hb, this]
    · simp only [hb, Bool.false_eq_true, if_false]; omega

theorem countP_lt_of {p : Base → Bool} : ∀ {l l' : List Base} {x : Nat} {b b' : Base}, List.Forall₂ (fun b b' => p b' = true → p b = true) l l' →
    l[x]? = some b → l'[x]? = some b' → p b = true → p b' = false → l'.countP p < l.countP p
  | _, _, x, _, _, .nil, h, _, _, _ => by simp at h
  | b :: l, b' :: l', 0, _, _, .cons h t, h1, h2, h3, h4 => by
    have := countP_le_of t
    simp only [List.getElem?_cons_zero, Option.some.injEq] at h1 h2
    subst h1; subst h2
    rw [List.countP_cons, List.countP_cons]
    simp only [h3, h4, Bool.false_eq_true, if_false, if_true]; omega
  | b :: l, b' :: l', x + 1, _, _, .cons h t, h1, h2, h3, h4 => by
    simp only [List.getElem?_cons_succ] at h1 h2
    have := countP_lt_of t h1 h2 h3 h4
    rw [List.countP_cons, List.countP_cons]
    by_cases hb : p b' = true
    · simp only [hb, h hb, if_true]; omega
    · simp only [hb, Bool.false_eq_true, if_false]; omega

theorem forall₂_of {R : Base → Base → Prop} : ∀ {l l' : List Base}, l'.length = l.length → (∀ (x : Nat) b b', l[x]? = some b → l'[x]? = some b' → R b b') → List.Forall₂ R l l'
  | [], [], _, _ => .nil
  | [], _ :: _, h, _ => by simp at h
  | _ :: _, [], h, _ => by simp at h
  | b :: l, b' :: l', h, k => .cons (k 0 b b' rfl rfl) (forall₂_of (by simpa using h) fun x b b' h1 h2 => k (x + 1) b b' h1 h2)

theorem Step.wrapped_all {s s' : St} (p : Step s s') : List.Forall₂ (fun b b' : Base => (!b'.unwrapped) = true → (!b.unwrapped) = true) s.bases s'.bases :=
  forall₂_of p.len fun x b b' h h' => by
    have := (p.flags x b b' h h').1
    cases hb : b.unwrapped <;> simp_all

theorem Step.wrapped {s s' : St} (p : Step s s') : wrapped s' ≤ wrapped s := countP_le_of p.wrapped_all

theorem Step.wrapped_lt {s s' : St} (p : Step s s') {x : Addr} {b b' : Base} (h : s.base x = some b) (h' : s'.base x = some b') (k : b.unwrapped = false)
    (k' : b'.unwrapped = true) : Stops.wrapped s' < Stops.wrapped s := countP_lt_of p.wrapped_all h h' (by simp [k]) (by simp [k'])

theorem Step.unseen_all {s s' : St} (p : Step s s') : List.Forall₂ (fun b b' : Base => (!b'.visited) = true → (!b.visited) = true) s.bases s'.bases :=
  forall₂_of p.len fun x b b' h h' => by
    have := (p.flags x b b' h h').2
    cases hb : b.visited <;> simp_all

theorem Step.unseen {s s' : St} (p : Step s s') : unseen s' ≤ unseen s := countP_le_of p.unseen_all

theorem Step.unseen_lt {s s' : St} (p : Step s s') {x : Addr} {b b' : Base} (h : s.base x = some b) (h' : s'.base x = some b') (k : b.visited = false)
    (k' : b'.visited = true) : Stops.unseen s' < Stops.unseen s := countP_lt_of p.unseen_all h h' (by simp [k]) (by simp [k'])

/-! ## The logic -/

/-- The run stops, keeps the invariant, and leads from `s0` to a later state. -/
def Runs {α : Type} (D : Zone) (s0 : St) (m : M St α) (s : St) : Prop := (m s).1 ≠ .diverge ∧ Inv D (m s).2 ∧ Step s0 (m s).2

section
variable {α β : Type} {D : Zone} {s0 s : St}

theorem Runs.bind {m : M St α} {f : α → M St β} (h : Runs D s m s) (h0 : Step s0 s) (k : ∀ x s', m s = (.ok x, s') → Inv D s' → Step s s' → Runs D s0 (f x) s') :
    Runs D s0 (M.bind m f) s := by
  unfold Runs M.bind at *
  cases hm : m s with
  | mk o t =>
    rw [hm] at h
    cases o with
    | ok x => exact k x t hm h.2.1 h.2.2
    | err e => exact ⟨by simp, h.2.1, h0.trans h.2.2⟩
    | panic e => exact ⟨by simp, h.2.1, h0.trans h.2.2⟩
    | diverge => exact absurd rfl h.1

theorem Runs.ret {x : α} (i : Inv D s) (h0 : Step s0 s) : Runs D s0 (M.ret x) s := ⟨by simp [M.ret], i, h0⟩
theorem Runs.err {e : String} (i : Inv D s) (h0 : Step s0 s) : Runs D s0 (M.err e : M St α) s := ⟨by simp [M.err], i, h0⟩
theorem Runs.panic {e : String} (i : Inv D s) (h0 : Step s0 s) : Runs D s0 (M.panic e : M St α) s := ⟨by simp [M.panic], i, h0⟩
theorem Runs.lift {o : Out α} (ho : o ≠ .diverge) (i : Inv D s) (h0 : Step s0 s) : Runs D s0 (M.lift o) s := ⟨ho, i, h0⟩
theorem Runs.later {m : M St α} (h : Runs D s m s) (h0 : Step s0 s) : Runs D s0 m s := ⟨h.1, h.2.1, h0.trans h.2.2⟩

theorem Runs.getBase {a : Addr} (i : Inv D s) : Runs D s (Heap.getBase a) s := by
  unfold Runs Heap.getBase
  split
  · exact ⟨by simp, i, .refl s⟩
  · exact ⟨by simp, i, .refl s⟩

theorem Runs.getShape {a : Addr} (i : Inv D s) : Runs D s (Heap.getShape a) s := by
  unfold Runs Heap.getShape
  split
  · exact ⟨by simp, i, .refl s⟩
  · exact ⟨by simp, i, .refl s⟩

theorem getBase_ok {a : Addr} {s' : St} {b : Base} (h : Heap.getBase a s = (.ok b, s')) : s' = s ∧ s.base a = some b := by
  unfold Heap.getBase at h
  cases hb : s.base a with
  | none => rw [hb] at h; cases h
  | some b' => rw [hb] at h; cases h; exact ⟨rfl, rfl⟩

theorem getShape_ok {a : Addr} {s' : St} {q : Shape} (h : Heap.getShape a s = (.ok q, s')) : s' = s ∧ s.shapeAt a = some q := by
  unfold Heap.getShape at h
  cases hb : s.shapeAt a with
  | none => rw [hb] at h; cases h
  | some b' => rw [hb] at h; cases h; exact ⟨rfl, rfl⟩

/-- What a base may become. -/
structure Fit (D : Zone) (b b' : Base) : Prop where
  plain : ∀ u e, b'.shape ≠ some (.union u e)
  defs : ∀ i, b'.facetDefs = some i → D.defs i
  props : ∀ f i, b'.shape = some (.object f) → f.properties = some i → ¬ D.empty i
  unwrapped : b.unwrapped = true → b'.unwrapped = true
  visited : b.visited = true → b'.visited = true

theorem base_modify {a x : Addr} {f : Base → Base} : ({ s with bases := s.bases.modify a f } : St).base x = (s.base x).map fun b => if a = x then f b else b := by
  simp only [St.base, List.getElem?_modify]
  cases s.bases[x]? <;> simp

theorem modify_back {a : Addr} {f : Base → Base} {x : Addr} {b' : Base} (hb : ({ s with bases := s.bases.modify a f } : St).base x = some b') :
    ∃ b, s.base x = some b ∧ (a ≠ x ∧ b' = b ∨ a = x ∧ b' = f b) := by
  rw [base_modify] at hb
  cases hx : s.base x with
  | none => rw [hx] at hb; cases hb
  | some b =>
    rw [hx] at hb
    simp only [Option.map_some, Option.some.injEq] at hb
    refine ⟨b, rfl, ?_⟩
    by_cases e : a = x
    · rw [if_pos e] at hb; exact .inr ⟨e, hb.symm⟩
    · rw [if_neg e] at hb; exact .inl ⟨e, hb.symm⟩

theorem Inv.keep {a : Addr} {f : Base → Base} (i : Inv D s) (h : ∀ b, s.base a = some b → ∃ b0, Fit D b0 (f b)) : Inv D { s with bases := s.bases.modify a f } := by
  refine ⟨fun x b' u e hb => ?_, fun x b' j hb => ?_, fun x b' g j hb => ?_, i.none⟩
  · obtain ⟨b, h1, ⟨_, rfl⟩ | ⟨rfl, rfl⟩⟩ := modify_back hb
    · exact i.plain x _ u e h1
    · exact (h b h1).elim fun _ k => k.plain u e
  · obtain ⟨b, h1, ⟨_, rfl⟩ | ⟨rfl, rfl⟩⟩ := modify_back hb
    · exact i.defs x _ j h1
    · exact (h b h1).elim fun _ k => k.defs j
  · obtain ⟨b, h1, ⟨_, rfl⟩ | ⟨rfl, rfl⟩⟩ := modify_back hb
    · exact i.props x _ g j h1
    · exact (h b h1).elim fun _ k => k.props g j

theorem Inv.upd {a : Addr} {f : Base → Base} (i : Inv D s) (h : ∀ b, s.base a = some b → Fit D b (f b)) :
    Inv D { s with bases := s.bases.modify a f } ∧ Step s { s with bases := s.bases.modify a f } := by
  refine ⟨i.keep fun b hb => ⟨b, h b hb⟩, by simp, fun x b b' hb hb' => ?_⟩
  obtain ⟨b1, h1, h2⟩ := modify_back hb'
  rw [hb] at h1; cases h1
  rcases h2 with ⟨_, rfl⟩ | ⟨rfl, rfl⟩
  · exact ⟨id, id⟩
  · exact ⟨(h b hb).unwrapped, (h b hb).visited⟩

theorem Runs.upd {a : Addr} {f : Base → Base} (i : Inv D s) (h : ∀ b, s.base a = some b → Fit D b (f b)) : Runs D s (Heap.updBase a f) s :=
  ⟨by simp [Heap.updBase], (i.upd h).1, (i.upd h).2⟩

/-- A base as it is fits. -/
theorem Inv.fit {a : Addr} {b b' : Base} (i : Inv D s) (h : s.base a = some b) (h1 : b'.shape = b.shape) (h2 : b'.facetDefs = b.facetDefs)
    (h3 : b.unwrapped = true → b'.unwrapped = true) (h4 : b.visited = true → b'.visited = true) : Fit D b b' :=
  ⟨fun u e => h1 ▸ i.plain a b u e h, fun j => h2 ▸ i.defs a b j h, fun f j => h1 ▸ i.props a b f j h, h3, h4⟩

/-- Tables that do not matter. -/
theorem Inv.tables {s' : St} (i : Inv D s) (h1 : s'.bases = s.bases) (h2 : ∀ j, D.empty j → s'.props (some j) = s.props (some j)) : Inv D s' ∧ Step s s' := by
  have hb : ∀ x, s'.base x = s.base x := fun x => by simp only [St.base, h1]
  refine ⟨⟨fun a b u e h => i.plain a b u e (hb a ▸ h), fun a b j h => i.defs a b j (hb a ▸ h), fun a b f j h => i.props a b f j (hb a ▸ h), fun j hj => (h2 j hj).trans (i.none j hj)⟩,
    congrArg List.length h1, fun x b b' k k' => ?_⟩
  rw [hb, k] at k'; cases k'; exact ⟨id, id⟩

theorem Runs.tables {m : M St α} {x : α} {s' : St} (i : Inv D s) (hm : m s = (.ok x, s')) (h1 : s'.bases = s.bases) (h2 : ∀ j, D.empty j → s'.props (some j) = s.props (some j)) :
    Runs D s m s := by
  unfold Runs
  rw [hm]
  exact ⟨by simp, (i.tables h1 h2).1, (i.tables h1 h2).2⟩

theorem Runs.forEach {f : α → M St Unit} : ∀ (l : List α) {s : St}, Inv D s → (∀ x ∈ l, ∀ s', Inv D s' → Step s s' → Runs D s' (f x) s') → Runs D s (M.forEach f l) s
  | [], _, i, _ => .ret i (.refl _)
  | x :: l, s, i, h => .bind (h x List.mem_cons_self s i (.refl s)) (.refl s) fun _ s' _ i' p =>
    (Runs.forEach l i' fun y hy s'' i'' q => h y (List.mem_cons_of_mem _ hy) s'' i'' (p.trans q)).later p

end

end GoRaml.Stops
