import Verif.Lemmas.Mark

/-!
# Recursion marking, step by step
-/

namespace GoRaml

open Spec

theorem modify_last {α : Type} (l : List α) (x : α) (f : α → α) : (l ++ [x]).modify l.length f = l ++ [f x] := by
  induction l with
  | nil => rfl
  | cons y l ih => simp [ih]

/-- The call on a visited type makes a new recursive reference. -/
theorem mark_visited {h : St} {a : Addr} {b : Base} (hb : h.base a = some b) (hu : b.unwrapped = true)
    (hv : b.visited = true) (n : Nat) :
    ∃ h' L, mark (n + 1) a h = (.ok (some h.bases.length), h') ∧ h'.bases = h.bases ++ [L] ∧ h'.pmaps = h.pmaps ++ [[]] ∧
      h'.ppmaps = h.ppmaps ∧ h'.slices = h.slices ∧ L.shape = some (.recursive a) ∧ L.unwrapped = true ∧
      L.visited = false ∧ L.facetDefs = some h.pmaps.length ∧ L.inherits = none := by
  unfold mark
  rw [M.bind_of_ok (show Heap.getBase a h = (.ok b, h) by simp [Heap.getBase, hb])]
  simp only [hu, hv, Bool.not_true, Bool.false_eq_true, if_false, if_true]
  unfold makeRecursive makeBaseShape
  simp only [M.bind, Heap.newID, Heap.newFacets, Heap.newProps, Heap.newBase, Heap.putShape, Heap.updBase, M.ret,
    modify_last]
  exact ⟨_, _, rfl, rfl, rfl, rfl, rfl, rfl, rfl, rfl, rfl, rfl⟩

section
variable {C : Addr → Prop}

theorem marked_new {h h' : St} {L : Base} {a : Addr} (hC : C a) (hb : h'.bases = h.bases ++ [L])
    (hp : h'.pmaps = h.pmaps ++ [[]]) (hpp : h'.ppmaps = h.ppmaps) (hsl : h'.slices = h.slices)
    (hs : L.shape = some (.recursive a)) (hu : L.unwrapped = true) (hv : L.visited = false)
    (hf : L.facetDefs = some h.pmaps.length ∧ L.inherits = none) :
    Marked C h h' ∧ SameVis h h' ∧ h.base h.bases.length = none ∧ h'.shapeAt h.bases.length = some (.recursive a) := by
  have hold : ∀ x, h.base x ≠ none → h'.base x = h.base x := by
    intro x hx
    unfold St.base at *
    rw [hb, List.getElem?_append_left]
    by_contra hlt
    exact hx (List.getElem?_eq_none (Nat.le_of_not_lt hlt))
  have hnew : ∀ x b, h.base x = none → h'.base x = some b → b = L := by
    intro x b h1 h2
    unfold St.base at *
    rw [hb] at h2
    rw [List.getElem?_append_right (List.getElem?_eq_none_iff.1 h1)] at h2
    cases hk : x - h.bases.length with
    | zero => rw [hk] at h2; simpa using h2.symm
    | succ k => rw [hk] at h2; simp at h2
  have hprops : ∀ p, h'.props p = h.props p := by
    intro p
    cases p with
    | none => rfl
    | some i =>
      unfold St.props
      simp only [hp]
      by_cases hi : i < h.pmaps.length
      · rw [List.getElem?_append_left hi]
      · rw [List.getElem?_append_right (Nat.le_of_not_lt hi), List.getElem?_eq_none (Nat.le_of_not_lt hi)]
        cases i - h.pmaps.length <;> simp
  refine ⟨⟨fun x b hx => ⟨b.shape, b.visited, by rw [hold x (by rw [hx]; simp), hx], .same _⟩, fun p => ?_, fun p => ?_,
    fun p => ?_, fun y b h1 h2 => ?_, fun y b h1 h2 => hnew y b h1 h2 ▸ hf.2⟩, ⟨fun x hx => by unfold visitedAt; rw [hold x hx], fun y hy hv' => ?_⟩,
    List.getElem?_eq_none (Nat.le_refl _), ?_⟩
  · rw [hprops]; exact List.forall₂_same.2 fun _ _ => ⟨rfl, _, rfl, .refl _⟩
  · have : h'.patProps p = h.patProps p := by unfold St.patProps; rw [hpp]
    rw [this]; exact List.forall₂_same.2 fun _ _ => ⟨rfl, _, rfl, .refl _⟩
  · have : h'.slice p = h.slice p := by unfold St.slice; rw [hsl]
    rw [this]; exact List.forall₂_same.2 fun _ _ => .refl _
  · have := hnew y b h1 h2
    subst this
    refine ⟨hu, ?_, a, hC, hs⟩
    rw [hprops, hf.1]; simp [St.props]
  · cases hb' : h'.base y with
    | none => rw [visitedAt_none hb'] at hv'; cases hv'
    | some b =>
      have := hnew y b hy hb'
      subst this
      simp [visitedAt, hb', hv] at hv'
  · unfold St.shapeAt St.base
    rw [hb, List.getElem?_append_right (Nat.le_refl _)]
    simp [hs]

/-- Heaps that differ only in flags of `a`. -/
theorem marked_flag (a : Addr) (v : Bool) (h : St) :
    Marked C h { h with bases := h.bases.modify a fun x => { x with visited := v } } := by
  refine ⟨fun x b hb => ?_, fun _ => List.forall₂_same.2 fun _ _ => ⟨rfl, _, rfl, .refl _⟩,
    fun _ => List.forall₂_same.2 fun _ _ => ⟨rfl, _, rfl, .refl _⟩, fun _ => List.forall₂_same.2 fun _ _ => .refl _,
    fun y b h1 h2 => ?_, fun y b h1 h2 => ?_⟩
  · rw [base_upd, hb]
    by_cases hax : a = x
    · exact ⟨b.shape, v, by simp [hax], .same _⟩
    · exact ⟨b.shape, b.visited, by simp [hax], .same _⟩
  · rw [base_upd, h1] at h2; cases h2
  · rw [base_upd, h1] at h2; cases h2

theorem visited_flag (a : Addr) (v : Bool) (h : St) (x : Addr) :
    visitedAt { h with bases := h.bases.modify a fun x => { x with visited := v } } x =
    if a = x then (visitedAt h x).map fun _ => v else visitedAt h x := by
  unfold visitedAt
  rw [base_upd]
  cases h.base x with
  | none => simp
  | some b => by_cases hax : a = x <;> simp [hax]

theorem forall₂_set {α : Type} {R : α → α → Prop} : ∀ {l l' : List α}, List.Forall₂ R l l' → ∀ (k : Nat) (x y : α),
    l[k]? = some x → R x y → List.Forall₂ R l (l'.set k y)
  | _, _, .nil, k, x, y, hx, _ => by simp at hx
  | _, _, .cons h1 h2, 0, x, y, hx, hr => by
    simp only [List.getElem?_cons_zero, Option.some.injEq] at hx
    subst hx
    exact .cons hr h2
  | _, _, .cons h1 h2, k + 1, x, y, hx, hr => .cons h1 (forall₂_set h2 k x y (by simpa using hx) hr)

theorem props_modify (h : St) (i : Nat) (f : OMap Property → OMap Property) (hf : f [] = []) (p : Option Nat) :
    ({ h with pmaps := h.pmaps.modify i f } : St).props p = if p = some i then f (h.props p) else h.props p := by
  cases p with
  | none => simp [St.props]
  | some j =>
    unfold St.props
    simp only [List.getElem?_modify, Option.some.injEq]
    by_cases hij : i = j
    · subst hij
      cases h.pmaps[i]? with
      | none => simp [hf]
      | some m => simp
    · have : ¬ j = i := fun e => hij e.symm
      simp only [this, if_false]
      cases h.pmaps[j]? <;> simp [hij]

theorem patProps_modify (h : St) (i : Nat) (f : OMap PatternProperty → OMap PatternProperty) (hf : f [] = []) (p : Option Nat) :
    ({ h with ppmaps := h.ppmaps.modify i f } : St).patProps p = if p = some i then f (h.patProps p) else h.patProps p := by
  cases p with
  | none => simp [St.patProps]
  | some j =>
    unfold St.patProps
    simp only [List.getElem?_modify, Option.some.injEq]
    by_cases hij : i = j
    · subst hij
      cases h.ppmaps[i]? with
      | none => simp [hf]
      | some m => simp
    · have : ¬ j = i := fun e => hij e.symm
      simp only [this, if_false]
      cases h.ppmaps[j]? <;> simp [hij]

theorem slice_modify (h : St) (i : Nat) (f : List Addr → List Addr) (hf : f [] = []) (p : Option Nat) :
    ({ h with slices := h.slices.modify i f } : St).slice p = if p = some i then f (h.slice p) else h.slice p := by
  cases p with
  | none => simp [St.slice]
  | some j =>
    unfold St.slice
    simp only [List.getElem?_modify, Option.some.injEq]
    by_cases hij : i = j
    · subst hij
      cases h.slices[i]? with
      | none => simp [hf]
      | some m => simp
    · have : ¬ j = i := fun e => hij e.symm
      simp only [this, if_false]
      cases h.slices[j]? <;> simp [hij]

theorem marked_maps {h h' h'' : St} (m : Marked C h h') (hb : h''.bases = h'.bases)
    (hp : ∀ p, List.Forall₂ (fun e e' => e'.1 = e.1 ∧ ∃ y, e'.2 = { e.2 with base := y } ∧ Repl C h h' e.2.base y)
      (h.props p) (h''.props p))
    (hpp : ∀ p, List.Forall₂ (fun e e' => e'.1 = e.1 ∧ ∃ y, e'.2 = { e.2 with base := y } ∧ Repl C h h' e.2.base y)
      (h.patProps p) (h''.patProps p))
    (hsl : ∀ p, List.Forall₂ (Repl C h h') (h.slice p) (h''.slice p))
    (he : ∀ p, h'.props p = [] → h''.props p = []) : Marked C h h'' := by
  have hbase : ∀ x, h''.base x = h'.base x := fun x => by unfold St.base; rw [hb]
  have keep : ∀ {x y : Addr}, Repl C h h' x y → Repl C h h'' x y := by
    intro x y hxy
    rcases hxy with rfl | ⟨c1, c2, c3⟩
    · exact .refl _
    · exact Or.inr ⟨c1, c2, by unfold St.shapeAt; rw [hbase]; exact c3⟩
  refine ⟨fun x b hx => ?_, fun p => (hp p).imp ?_, fun p => (hpp p).imp ?_, fun p => (hsl p).imp ?_, fun y b h1 h2 => ?_, fun y b h1 h2 => m.roots y b h1 (by rw [← hbase]; exact h2)⟩
  · obtain ⟨s, v, h1, h2⟩ := m.old x b hx
    refine ⟨s, v, by rw [hbase]; exact h1, ?_⟩
    generalize b.shape = t at h2
    cases h2 with
    | same => exact .same _
    | items h5 h6 => exact .items h5 (keep h6)
  · rintro e e' ⟨e1, y, e2, e3⟩; exact ⟨e1, y, e2, keep e3⟩
  · rintro e e' ⟨e1, y, e2, e3⟩; exact ⟨e1, y, e2, keep e3⟩
  · intro e e' e3; exact keep e3
  · rw [hbase] at h2
    obtain ⟨h3, h4, h5⟩ := m.fresh y b h1 h2
    exact ⟨h3, he _ h4, h5⟩

theorem marked_setProp {h h' : St} (m : Marked C h h') {i k : Nat} {kp : String × Property}
    (hk : (h.props (some i))[k]? = some kp) {r : Addr} (hr : Repl C h h' kp.2.base r) :
    Marked C h { h' with pmaps := h'.pmaps.modify i fun m => (List.set m k (kp.1, { kp.2 with base := r }) : List _) } := by
  refine marked_maps m rfl (fun p => ?_) m.patProps m.slices fun p hp => ?_
  · rw [props_modify _ _ _ rfl]
    split
    · next hp => subst hp; exact forall₂_set (m.props _) k kp _ hk ⟨rfl, r, rfl, hr⟩
    · exact m.props p
  · rw [props_modify _ _ _ rfl, hp]
    split <;> rfl

theorem marked_setPatProp {h h' : St} (m : Marked C h h') {i k : Nat} {kp : String × PatternProperty}
    (hk : (h.patProps (some i))[k]? = some kp) {r : Addr} (hr : Repl C h h' kp.2.base r) :
    Marked C h { h' with ppmaps := h'.ppmaps.modify i fun m => (List.set m k (kp.1, { kp.2 with base := r }) : List _) } := by
  refine marked_maps m rfl m.props (fun p => ?_) m.slices fun p hp => hp
  rw [patProps_modify _ _ _ rfl]
  split
  · next hp => subst hp; exact forall₂_set (m.patProps _) k kp _ hk ⟨rfl, r, rfl, hr⟩
  · exact m.patProps p

theorem marked_setSlice {h h' : St} (m : Marked C h h') {i k : Nat} {x : Addr}
    (hk : (h.slice (some i))[k]? = some x) {r : Addr} (hr : Repl C h h' x r) :
    Marked C h { h' with slices := h'.slices.modify i fun l => l.set k r } := by
  refine marked_maps m rfl m.props m.patProps (fun p => ?_) fun p hp => hp
  rw [slice_modify _ _ _ rfl]
  split
  · next hp => subst hp; exact forall₂_set (m.slices _) k x _ hk hr
  · exact m.slices p

theorem marked_setArray {h h' : St} (m : Marked C h h') {a : Addr} {f : ArrayF} (hs : h.shapeAt a = some (.array f))
    {i : Addr} (hi : f.items = some i) {r : Addr} (hr : Repl C h h' i r) :
    ∃ h'', setArray a { f with items := some r } h' = (.ok (), h'') ∧ Marked C h h'' ∧
      (∀ x, visitedAt h'' x = visitedAt h' x) ∧ h''.shapeAt a = some (.array { f with items := some r }) ∧
      (∀ x, x ≠ a → h''.shapeAt x = h'.shapeAt x) := by
  obtain ⟨b, hb, hbs⟩ := base_of_shape hs
  obtain ⟨s, v, h1, h2⟩ := m.old a b hb
  obtain ⟨f', hf'⟩ : ∃ f', s = some (.array f') := by
    rw [hbs] at h2
    cases h2 with
    | same => exact ⟨_, rfl⟩
    | items => exact ⟨_, rfl⟩
  subst hf'
  unfold setArray
  rw [upd_run]
  refine ⟨_, rfl, ?_, fun x => ?_, ?_, fun x hx => ?_⟩
  · have keep : ∀ {x y : Addr}, Repl C h h' x y →
        Repl C h { h' with bases := h'.bases.modify a fun b => match b.shape with
          | some (.array _) => { b with shape := some (.array { f with items := some r }) }
          | _ => b } x y := by
      intro x y hxy
      rcases hxy with rfl | ⟨c1, c2, c3⟩
      · exact .refl _
      · refine Or.inr ⟨c1, c2, ?_⟩
        have hya : ¬ a = y := fun e => by subst e; rw [hb] at c2; cases c2
        unfold St.shapeAt at *
        rw [base_upd]
        cases hy : h'.base y with
        | none => rw [hy] at c3; cases c3
        | some z => rw [hy] at c3; simpa [hya] using c3
    refine ⟨fun x bx hx => ?_, fun p => (m.props p).imp ?_, fun p => (m.patProps p).imp ?_, fun p => (m.slices p).imp ?_, fun y by' e1 e2 => ?_, fun y by' e1 e2 => ?_⟩
    · obtain ⟨s', v', h3, h4⟩ := m.old x bx hx
      rw [base_upd, h3]
      by_cases hax : a = x
      · subst hax
        rw [hb] at hx
        cases hx
        rw [h1] at h3
        simp only [Option.some.injEq] at h3
        have hs' : s' = some (.array f') := by
          have := congrArg Base.shape h3
          simpa using this.symm
        subst hs'
        refine ⟨some (.array { f with items := some r }), v', ?_, ?_⟩
        · simp
        · rw [hbs]
          exact .items hi (keep hr)
      · refine ⟨s', v', by simp [hax], ?_⟩
        generalize bx.shape = t at h4
        cases h4 with
        | same => exact .same _
        | items h5 h6 => exact .items h5 (keep h6)
    · rintro e e' ⟨e1, y, e2, e3⟩; exact ⟨e1, y, e2, keep e3⟩
    · rintro e e' ⟨e1, y, e2, e3⟩; exact ⟨e1, y, e2, keep e3⟩
    · intro e e' e3; exact keep e3
    · have hya : ¬ a = y := fun e => by subst e; rw [hb] at e1; cases e1
      rw [base_upd] at e2
      cases hy : h'.base y with
      | none => rw [hy] at e2; cases e2
      | some z =>
        rw [hy] at e2
        simp only [hya, if_false, Option.map_some, Option.some.injEq] at e2
        subst e2
        exact m.fresh y z e1 hy
    · have hya : ¬ a = y := fun e => by subst e; rw [hb] at e1; cases e1
      rw [base_upd] at e2
      cases hy : h'.base y with
      | none => rw [hy] at e2; cases e2
      | some z =>
        rw [hy] at e2
        simp only [hya, if_false, Option.map_some, Option.some.injEq] at e2
        subst e2
        exact m.roots y z e1 hy
  · unfold visitedAt
    rw [base_upd]
    cases h'.base x with
    | none => rfl
    | some b =>
      simp only [Option.map_some]
      split
      · split <;> rfl
      · rfl
  · unfold St.shapeAt
    rw [base_upd, h1]
    simp
  · unfold St.shapeAt
    rw [base_upd]
    have : ¬ a = x := fun e => hx e.symm
    cases h'.base x <;> simp [this]

end

end GoRaml
