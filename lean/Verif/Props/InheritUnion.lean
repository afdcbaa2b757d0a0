import Verif.Lemmas.Visited
import Verif.Props.Inherit

/-!
# Properties C18, C19, C20: unions, and repeated inheritance from one parent
-/

namespace GoRaml.Props

open GoRaml Spec

/-! ## C18 -/

/-- The skeleton of `Inherit` between two unions. -/
theorem union_run {n : Nat} {h h' : St} {a b r : Addr} {la lb : Option Nat} {ea eb : Option (List GoVal)}
    (ha : h.shapeAt a = some (.union la ea)) (hb : h.shapeAt b = some (.union lb eb)) (hid : Idle h b)
    (hrun : inherit (n + 1) a b h = (.ok r, h')) :
    r = a ∧ ∃ h1 h2, Cosmetic h h1 ∧ inheritUnion (inherit n) a b h1 = (.ok (), h2) ∧ Cosmetic h2 h' := by
  obtain ⟨ba, hba, hba'⟩ := base_of_shape ha
  obtain ⟨bb, hbb, hbb'⟩ := base_of_shape hb
  have hv := idle_visited hid
  obtain ⟨h1, c, hvis, hr0⟩ := inherit_prelude hba hbb (by simpa [visitedAt, hbb] using hv) n
  rw [hr0] at hrun
  obtain ⟨b1, hb1, hb1'⟩ := base_of_shape (show h1.shapeAt a = some (.union la ea) by rw [c.shapeAt, ha])
  obtain ⟨b2, hb2, hb2'⟩ := base_of_shape (show h1.shapeAt b = some (.union lb eb) by rw [c.shapeAt, hb])
  unfold inheritDispatch at hrun
  rw [M.bind_of_ok (show Heap.getBase a h1 = (.ok b1, h1) by simp [Heap.getBase, hb1]),
    M.bind_of_ok (show Heap.getBase b h1 = (.ok b2, h1) by simp [Heap.getBase, hb2]), hb1', hb2'] at hrun
  obtain ⟨_, h2, e2, hrun2⟩ := M.bind_ok.1 hrun
  obtain ⟨_, h3, e3, hrun3⟩ := M.bind_ok.1 hrun2
  obtain ⟨rfl, rfl⟩ := M.ret_ok.1 hrun3
  simp only [Heap.updBase, Prod.mk.injEq, true_and] at e3
  refine ⟨rfl, h1, h2, c, e2, ?_⟩
  rw [← e3]; exact Cosmetic.upd b _ (fun _ => rfl)

/-- A member `m` of a merged union: in some heap `h1` the parent's member `s` and the child's member `t` had the same type
name, `t` was cloned, and the clone, under a new ID, inherited from `s`, which gave `m`. -/
def CameFrom (n : Nat) (s t m : Addr) : Prop :=
  ∃ h1 h2 h3 bs bt c id k, h1.base s = some bs ∧ h1.base t = some bt ∧ bs.type = bt.type ∧
    cloneDetached k t h1 = (.ok c, h2) ∧
    inherit n c s { h2 with idCounter := id, bases := h2.bases.modify c fun b => { b with id } } = (.ok m, h3)

/-- C18: when a union inherits from a union successfully, a child without members takes over the parent's; otherwise the
members afterwards come in groups, one non-empty group per parent member in order, and each member of a group is the
result of a clone of a child member inheriting from that parent member of the same type name. -/
theorem c18_union_members {n : Nat} {h h' : St} {a b r : Addr} {la lb : Option Nat} {ea eb : Option (List GoVal)}
    (ha : h.shapeAt a = some (.union la ea)) (hb : h.shapeAt b = some (.union lb eb)) (hid : Idle h b)
    (hrun : inherit (n + 1) a b h = (.ok r, h')) :
    r = a ∧ ∃ l, h'.shapeAt a = some (.union l ea) ∧ (h.slice la = [] → l = lb) ∧
      (h.slice la ≠ [] → ∃ groups : List (List Addr), h'.slice l = groups.flatten ∧
        List.Forall₂ (fun s group => group ≠ [] ∧ ∀ m ∈ group, ∃ t ∈ h.slice la, CameFrom n s t m) (h.slice lb) groups) := by
  obtain ⟨rfl, h1, h2, c, e2, c2⟩ := union_run ha hb hid hrun
  refine ⟨rfl, ?_⟩
  unfold inheritUnion at e2
  have ua : unionAt h1 r = (la, ea) := by unfold unionAt; rw [c.shapeAt, ha]
  have ub : unionAt h1 b = (lb, eb) := by unfold unionAt; rw [c.shapeAt, hb]
  rw [M.get_bind, ua, ub] at e2
  simp only [c.slice] at e2
  by_cases he : (h.slice la).isEmpty = true
  · rw [if_pos he] at e2
    have put := setShape_put (show h1.shapeAt r = some _ by rw [c.shapeAt, ha]) e2
    refine ⟨lb, by rw [c2.shapeAt, put.shape], fun _ => rfl, fun hne => ?_⟩
    rw [List.isEmpty_iff] at he; exact absurd he hne
  · rw [if_neg he] at e2
    obtain ⟨l, h3, e3, e4⟩ := M.bind_ok.1 e2
    obtain ⟨i, h4, e5, e6⟩ := M.bind_ok.1 e4
    simp only [Heap.newSlice, Prod.mk.injEq, Out.ok.injEq] at e5
    obtain ⟨rfl, rfl⟩ := e5
    obtain ⟨groups, hl, hg⟩ := inheritMembers_ok e3
    have hun : ∃ l' e', h3.shapeAt r = some (.union l' e') :=
      (Keeps.of_run (grown_inheritMembers (grown_inherit n) _ _) e3).unions r la ea (by rw [c.shapeAt, ha])
    obtain ⟨l', e', hun⟩ := hun
    have put := setShape_put (h := { h3 with slices := h3.slices ++ [l] }) (s0 := .union l' e') hun e6
    refine ⟨some h3.slices.length, by rw [c2.shapeAt, put.shape], fun hn => absurd (List.isEmpty_iff.2 hn) he, fun _ => ?_⟩
    refine ⟨groups, ?_, hg⟩
    rw [c2.slice, ← hl]
    simp only [setShape, Heap.updBase, Prod.mk.injEq, true_and] at e6
    rw [← e6]
    simp [St.slice]

/-- C18, values: if the members are scalars and pairs with the same type name meet the conditions of C12-C15, every value
of the child union afterwards belongs to the parent union. -/
theorem c18_scalar_union_narrows (E : Ext) {n : Nat} {h h' : St} {a b r : Addr} {la lb : Option Nat}
    {ea eb : Option (List GoVal)} (ha : h.shapeAt a = some (.union la ea)) (hb : h.shapeAt b = some (.union lb eb))
    (hid : Idle h b) (hscalar : ∀ x ∈ h.slice la ++ h.slice lb, ∃ q, h.shapeAt x = some q ∧ IsLeaf q)
    (hpairs : ∀ t ∈ h.slice la, ∀ s ∈ h.slice lb, ∀ bt bs qt qs, h.base t = some bt → h.base s = some bs →
      bs.type = bt.type → bt.shape = some qt → bs.shape = some qs → ScalarNarrows qt qs)
    (hrun : inherit (n + 1) a b h = (.ok r, h')) (v : GoVal) (hv : Valid E h' r v) : Valid E h b v := by
  obtain ⟨rfl, h1, h2, c, e2, c2⟩ := union_run ha hb hid hrun
  unfold inheritUnion at e2
  have ua : unionAt h1 r = (la, ea) := by unfold unionAt; rw [c.shapeAt, ha]
  have ub : unionAt h1 b = (lb, eb) := by unfold unionAt; rw [c.shapeAt, hb]
  rw [M.get_bind, ua, ub] at e2
  simp only [c.slice] at e2
  rw [valid_iff_step] at hv ⊢
  unfold Step at hv ⊢
  rw [hb]
  by_cases he : (h.slice la).isEmpty = true
  · rw [if_pos he] at e2
    have put := setShape_put (show h1.shapeAt r = some _ by rw [c.shapeAt, ha]) e2
    rw [c2.shapeAt, put.shape] at hv
    obtain ⟨m, hm, hmv⟩ := hv
    have hsl : h'.slice lb = h.slice lb := by
      rw [c2.slice]
      simp only [setShape, Heap.updBase, Prod.mk.injEq, true_and] at e2
      rw [← e2]
      exact c.slice lb
    rw [hsl] at hm
    obtain ⟨q, hq, hl⟩ := hscalar m (List.mem_append_right _ hm)
    refine ⟨m, hm, (leaf_valid ?_ hq hl v).1 hmv⟩
    have hmr : m ≠ r := by rintro rfl; rw [ha] at hq; cases hq; exact hl.elim
    rw [c2.shapeAt, put.other hmr, c.shapeAt, hq]
  · rw [if_neg he] at e2
    obtain ⟨l, h3, e3, e4⟩ := M.bind_ok.1 e2
    obtain ⟨i, h4, e5, e6⟩ := M.bind_ok.1 e4
    simp only [Heap.newSlice, Prod.mk.injEq, Out.ok.injEq] at e5
    obtain ⟨rfl, rfl⟩ := e5
    have hsm : ScalarMembers h1 (h.slice la) (h.slice lb) := by
      have k : KeepShapes h h1 := ⟨c.grown.bases, fun x _ => c.shapeAt x, fun x _ => c.types x⟩
      exact ScalarMembers.mono ⟨hscalar, hpairs⟩ k
    obtain ⟨k, good⟩ := inheritMembers_scalar (E := E) hsm e3
    have hrl : r < h1.bases.length := lt_of_shapeAt (show h1.shapeAt r = some _ by rw [c.shapeAt, ha])
    have hun : h3.shapeAt r = some (.union la ea) := by rw [k.shapes r hrl, c.shapeAt, ha]
    have put := setShape_put (h := { h3 with slices := h3.slices ++ [l] }) (s0 := .union la ea) hun e6
    rw [c2.shapeAt, put.shape] at hv
    obtain ⟨m, hm, hmv⟩ := hv
    have hsl : h'.slice (some h3.slices.length) = l := by
      rw [c2.slice]
      simp only [setShape, Heap.updBase, Prod.mk.injEq, true_and] at e6
      rw [← e6]
      simp [St.slice]
    rw [hsl] at hm
    obtain ⟨s, hs, q, hq, ⟨p, hp, hpl, hpn⟩⟩ := good m hm
    have hmr : m ≠ r := by rintro rfl; rw [hun] at hp; cases hp; exact hpl.elim
    have hmp : h'.shapeAt m = some p := by
      rw [c2.shapeAt, put.other hmr]; exact hp
    exact ⟨s, hs, hpn h' h m s hmp (by rw [← c.shapeAt]; exact hq) v hmv⟩

/-- Parent union (0) `integer 0..10 | string` with members 2 and 5; child union (1) `integer 2..5 | string up to 1 byte` with
members 3 and 6; a further integer type -3..-1 (4). -/
def exUnions : St :=
  { bases := [{ shape := some (.union (some 0) none), type := "union" }, { shape := some (.union (some 1) none), type := "union" },
      { shape := some (.integer { minimum := some 0, maximum := some 10 }), type := "integer", id := 1 },
      { shape := some (.integer { minimum := some 2, maximum := some 5 }), type := "integer", id := 2 },
      { shape := some (.integer { minimum := some (-3), maximum := some (-1) }), type := "integer", id := 3 },
      { shape := some (.string {}), type := "string", id := 4 }, { shape := some (.string { maxLength := some 1 }), type := "string", id := 5 }]
    slices := [[2, 5], [3, 6]]
    idCounter := 9 }

/-- The hypotheses of C18 are met: a child `integer 2..5 | string up to 1 byte` of `integer 0..10 | string`. -/
example : ∃ h', inherit 2 1 0 exUnions = (.ok 1, h') ∧ Idle exUnions 0 ∧ h'.slice (some 2) = [7, 8] ∧
    Accepts exE h' 1 (.int 5) ∧ Rejects exE h' 1 (.int 7) ∧ Accepts exE h' 1 (.str "x") ∧ Rejects exE h' 1 (.str "xy") :=
  ⟨_, M.run_ok (by decide +kernel), ⟨_, rfl, rfl⟩, by decide +kernel, ⟨3, by decide +kernel⟩,
    ⟨3, "value does not match any type", by decide +kernel⟩, ⟨3, by decide +kernel⟩,
    ⟨3, "value does not match any type", by decide +kernel⟩⟩

example : (∀ x ∈ exUnions.slice (some 1) ++ exUnions.slice (some 0), ∃ q, exUnions.shapeAt x = some q ∧ IsLeaf q) := by
  intro x hx
  simp [exUnions, St.slice] at hx
  rcases hx with rfl | rfl | rfl | rfl <;> exact ⟨_, rfl, trivial⟩

/-- C18, what is lost: when a child member fails to inherit, the parent member stays marked as being visited, and the next
child member of that name is silently replaced by the parent member.  Here the child allowed -3..-1 or 2..5, the parent
0..10; the result accepts 7, which no member of the child allowed. -/
theorem c18_failed_member_spoils_next : ∃ (h h' : St), inherit 2 1 0 h = (.ok 1, h') ∧ Idle h 0 ∧
    h.slice (some 0) = [2] ∧ h.slice (some 1) = [4, 3] ∧ Rejects exE h 1 (.int 7) ∧ Accepts exE h' 1 (.int 7) ∧
    h'.slice (some 2) = [2] :=
  ⟨{ exUnions with slices := [[2], [4, 3]] }, _, M.run_ok (by decide +kernel), ⟨_, rfl, rfl⟩, rfl, rfl,
    ⟨3, "value does not match any type", by decide +kernel⟩, ⟨3, by decide +kernel⟩, by decide +kernel⟩

/-! ## C19 -/

/-- C19 (violated): for every parent type that is neither any nor a union, there is a union child, here with the one member
any, that inherits from it successfully and still accepts every value. -/
theorem c19_union_ignores_parent (E : Ext) (parent : Shape) (hp1 : parent ≠ .any) (hp2 : ∀ l e, parent ≠ .union l e) :
    ∃ h h', h.shapeAt 1 = some parent ∧ h.shapeAt 0 = some (.union (some 0) none) ∧ h.slice (some 0) = [2] ∧
      h.shapeAt 2 = some .any ∧ Idle h 1 ∧ inherit 3 0 1 h = (.ok 0, h') ∧ ∀ v, Accepts E h' 0 v := by
  let h : St :=
    { bases := [{ shape := some (.union (some 0) none), type := "union", id := 1 }, { shape := some parent, id := 2 },
        { shape := some .any, type := "any", id := 3 }]
      slices := [[2]] }
  have run : ∃ h', inherit 3 0 1 h = (.ok 0, h') ∧ h'.shapeAt 0 = some (.union (some 0) none) ∧ h'.slice (some 0) = [2] ∧
      h'.shapeAt 2 = some .any := by
    let h1 : Shape → St := fun p => { h with bases := [{ shape := some (.union (some 0) none), type := "union", id := 1 },
      { shape := some p, id := 2, visited := true }, { shape := some .any, type := "any", id := 3 }] }
    have e1 : inherit 3 0 1 h = inheritDispatch (inherit 2) 0 1 (h1 parent) := rfl
    have e2 : inheritDispatch (inherit 2) 0 1 (h1 parent) = inheritUnionTarget (inherit 2) 0 [2] (h1 parent) := by
      generalize inherit 2 = rec
      cases parent <;> first
        | exact absurd rfl hp1
        | exact absurd rfl (hp2 _ _)
        | rfl
    rw [e1, e2]
    exact ⟨_, rfl, rfl, rfl, rfl⟩
  obtain ⟨h', e1, e2, e3, e4⟩ := run
  refine ⟨h, h', rfl, rfl, rfl, rfl, ⟨_, rfl, rfl⟩, e1, fun v => ⟨2, ?_⟩⟩
  simp [validate, e2, validateShape, e3, unionValidate, e4]

/-- C19, a violation: a union of a string type inherits from an integer type, and accepts a string the parent rejects. -/
theorem c19_union_target_widens : ∃ (h h' : St) (v : GoVal), inherit 3 0 1 h = (.ok 0, h') ∧ Idle h 1 ∧
    h.shapeAt 0 = some (.union (some 0) none) ∧ h.slice (some 0) = [2] ∧ h.shapeAt 2 = some (.string {}) ∧
    h.shapeAt 1 = some (.integer {}) ∧ Accepts exE h' 0 v ∧ Rejects exE h 1 v :=
  ⟨{ bases := [{ shape := some (.union (some 0) none), type := "union", id := 1 }, { shape := some (.integer {}), id := 2 },
      { shape := some (.string {}), type := "string", id := 3 }], slices := [[2]] }, _, .str "x",
    M.run_ok (by decide +kernel), ⟨_, rfl, rfl⟩, rfl, rfl, rfl, rfl, ⟨3, by decide +kernel⟩,
    ⟨1, "invalid type", by decide +kernel⟩⟩

/-! ## C20 -/

theorem second_gets_parent {h : St} {a b : Addr} (ha : a < h.bases.length) (hv : visitedAt h b = some true) (n : Nat) :
    inherit (n + 1) a b h = (.ok b, h) := by
  obtain ⟨bb, hbb, hbv⟩ : ∃ bs, h.base b = some bs ∧ bs.visited = true := by simpa [visitedAt] using hv
  have hba : h.base a = some h.bases[a] := List.getElem?_eq_getElem ha
  simp only [inherit]
  rw [M.bind_of_ok (show Heap.getBase a h = (.ok _, h) by simp [Heap.getBase, hba]; rfl),
    M.bind_of_ok (show Heap.getBase b h = (.ok bb, h) by simp [Heap.getBase, hbb]), if_pos hbv]
  rfl

/-- C20 (violated for any-typed parents): the first child to inherit from an any-typed parent is returned; every later
child's call returns the parent itself in place of the child. -/
theorem c20_any_parent_second_child {n m : Nat} {h : St} {a₁ a₂ b : Addr} (h1 : a₁ < h.bases.length)
    (h2 : a₂ < h.bases.length) (hb : h.shapeAt b = some .any) (hid : Idle h b) :
    ∃ h', inherit (n + 1) a₁ b h = (.ok a₁, h') ∧ inherit (m + 1) a₂ b h' = (.ok b, h') := by
  obtain ⟨bb, hbb, hbb'⟩ := base_of_shape hb
  have hv := idle_visited hid
  obtain ⟨h', c, hvis, hrun⟩ := inherit_prelude (List.getElem?_eq_getElem h1) hbb (by simpa [visitedAt, hbb] using hv) n
  refine ⟨h', ?_, second_gets_parent (lt_of_lt_of_le h2 c.grown.bases) (by rw [hvis]; simp) m⟩
  rw [hrun]
  obtain ⟨b1, hb1, _⟩ := c.type (List.getElem?_eq_getElem h1 : h.base a₁ = _)
  obtain ⟨b2, hb2, hb2'⟩ := base_of_shape (show h'.shapeAt b = some .any by rw [c.shapeAt, hb])
  unfold inheritDispatch
  rw [M.bind_of_ok (show Heap.getBase a₁ h' = (.ok b1, h') by simp [Heap.getBase, hb1]),
    M.bind_of_ok (show Heap.getBase b h' = (.ok b2, h') by simp [Heap.getBase, hb2]), hb2']
  rfl

theorem dispatch_err_visited {n : Nat} {h h' : St} {a b : Addr} {e : String} (hv : visitedAt h b = some true)
    (hrun : inheritDispatch (inherit n) a b h = (.err e, h')) : visitedAt h' b = some true := by
  have key : ∀ {α : Type} {m : M St α} {o : Out α} {s : St}, Keeps (VKeep b) m → m h = (o, s) → visitedAt s b = some true := by
    intro α m o s hk hr; have := hk h; rw [hr] at this; exact this hv
  have hr := vkeep_inherit b n
  have tail : ∀ {m : M St Unit}, Keeps (VKeep b) m → (M.bind m fun _ =>
      M.bind (Heap.updBase b fun x => { x with visited := false }) fun _ => M.ret a) h = (.err e, h') →
      visitedAt h' b = some true := by
    intro m hk hr
    rcases M.bind_err.1 hr with h1 | ⟨_, _, _, h1⟩
    · exact key hk h1
    · simp [M.bind, Heap.updBase, M.ret] at h1
  unfold inheritDispatch at hrun
  rcases M.bind_err.1 hrun with h1 | ⟨ba, h1, e1, hrun1⟩
  · unfold Heap.getBase at h1; split at h1 <;> simp at h1
  obtain ⟨hba, rfl⟩ := getBase_ok.1 e1
  rcases M.bind_err.1 hrun1 with h1 | ⟨bb, h1, e1, hrun2⟩
  · unfold Heap.getBase at h1; split at h1 <;> simp at h1
  obtain ⟨hbb, rfl⟩ := getBase_ok.1 e1
  cases hS : bb.shape with
  | none =>
    rw [hS] at hrun2
    cases hT : ba.shape with
    | none => rw [hT] at hrun2; simp [M.panic] at hrun2
    | some t =>
      rw [hT] at hrun2
      cases t <;> first
        | (simp [M.panic] at hrun2; done)
        | exact key (vkeep_inheritUnionTarget hr a _) hrun2
  | some sh =>
    rw [hS] at hrun2
    cases hT : ba.shape with
    | none =>
      rw [hT] at hrun2
      cases sh <;> first
        | (simp [M.panic, M.ret] at hrun2; done)
        | exact key (vkeep_inheritUnionSource hr a _) hrun2
    | some t =>
      rw [hT] at hrun2
      by_cases hany : sh = .any
      · subst hany; simp [M.ret] at hrun2
      by_cases hu : ∃ l e, t = .union l e
      · obtain ⟨l, e, rfl⟩ := hu
        cases sh <;> first
          | exact absurd rfl hany
          | exact tail (vkeep_inheritUnion hr a b) hrun2
          | exact key (vkeep_inheritUnionTarget hr a _) hrun2
      · cases sh with
        | any => exact absurd rfl hany
        | union l e =>
          cases t with
          | union l e => exact absurd ⟨l, e, rfl⟩ hu
          | _ => exact key (vkeep_inheritUnionSource hr a _) hrun2
        | _ =>
          cases t with
          | union l e => exact absurd ⟨l, e, rfl⟩ hu
          | _ => exact tail (vkeep_inheritShape hr a b _ _) hrun2

/-- C20 (violated after failures): once a child failed to inherit from a parent of whatever type, every later child's call
to inherit from that parent succeeds at once and returns the parent in place of the child. -/
theorem c20_after_failure {n m : Nat} {h h' : St} {a₁ a₂ b : Addr} {e : String} (hid : Idle h b)
    (hrun : inherit n a₁ b h = (.err e, h')) (h2 : a₂ < h'.bases.length) : inherit (m + 1) a₂ b h' = (.ok b, h') := by
  refine second_gets_parent h2 ?_ m
  cases n with
  | zero => simp [inherit, M.diverge] at hrun
  | succ n =>
    have hv := idle_visited hid
    obtain ⟨bb, hbb, hbv⟩ := hid
    cases hba : h.base a₁ with
    | none => simp [inherit, M.bind, Heap.getBase, hba] at hrun
    | some ba =>
      obtain ⟨h1, c, hvis, hr0⟩ := inherit_prelude hba hbb hbv n
      rw [hr0] at hrun
      exact dispatch_err_visited (by rw [hvis]; simp) hrun

/-- C20 (violated for union parents): after a non-union child has inherited from a union, with whatever outcome, every
later child's call returns the union in place of the child. -/
theorem c20_union_parent_second_child {n m : Nat} {h h' : St} {a₁ a₂ b : Addr} {t : Shape} {l : Option Nat}
    {e : Option (List GoVal)} {o : Out Addr} (h1 : h.shapeAt a₁ = some t) (ht : ∀ l e, t ≠ .union l e)
    (hb : h.shapeAt b = some (.union l e)) (hid : Idle h b) (hrun : inherit (n + 1) a₁ b h = (o, h'))
    (h2 : a₂ < h'.bases.length) : inherit (m + 1) a₂ b h' = (.ok b, h') := by
  refine second_gets_parent h2 ?_ m
  obtain ⟨ba, hba, hba'⟩ := base_of_shape h1
  obtain ⟨bb, hbb, hbb'⟩ := base_of_shape hb
  have hv := idle_visited hid
  obtain ⟨h1', c, hvis, hr0⟩ := inherit_prelude hba hbb (by simpa [visitedAt, hbb] using hv) n
  rw [hr0] at hrun
  obtain ⟨b1, hb1, hb1'⟩ := base_of_shape (show h1'.shapeAt a₁ = some t by rw [c.shapeAt, h1])
  obtain ⟨b2, hb2, hb2'⟩ := base_of_shape (show h1'.shapeAt b = some (.union l e) by rw [c.shapeAt, hb])
  unfold inheritDispatch at hrun
  rw [M.bind_of_ok (show Heap.getBase a₁ h1' = (.ok b1, h1') by simp [Heap.getBase, hb1]),
    M.bind_of_ok (show Heap.getBase b h1' = (.ok b2, h1') by simp [Heap.getBase, hb2]), hb1', hb2'] at hrun
  have hk : inheritUnionSource (inherit n) a₁ (h1'.slice l) h1' = (o, h') := by
    rw [← hrun]
    cases t <;> first | rfl | exact absurd rfl (ht _ _)
  have := vkeep_inheritUnionSource (vkeep_inherit b n) a₁ (h1'.slice l) h1'
  rw [hk] at this
  exact this (by rw [hvis]; simp)

/-- C20, a violation seen in validation: with an any-typed parent, the second child ends up as the parent and accepts what
it should reject. -/
theorem c20_second_child_widens : ∃ (h h₁ h₂ : St) (r : Addr) (v : GoVal), Idle h 2 ∧ inherit 1 0 2 h = (.ok 0, h₁) ∧
    inherit 1 1 2 h₁ = (.ok r, h₂) ∧ Accepts exE h₂ r v ∧ Rejects exE h 1 v ∧
    ∃ h₂', inherit 1 1 2 h = (.ok 1, h₂') ∧ Rejects exE h₂' 1 v :=
  ⟨heapOf [.string {}, .integer {}, .any], _, _, 2, .str "x", ⟨_, rfl, rfl⟩, rfl, rfl, ⟨1, by decide +kernel⟩,
    ⟨1, "invalid type", by decide +kernel⟩, _, rfl,
    ⟨1, "invalid type", by decide +kernel⟩⟩

/-- C20 holds for scalar children of a scalar parent, as long as no call fails: after `a₁` inherited from `b`
successfully, `a₂` gets the same outcome and the same type from `b` as it would have got without it. -/
theorem c20_scalar_parent_independent {n m : Nat} {h h₁ : St} {a₁ a₂ b r : Addr} {t₁ t₂ s : Shape}
    (h1 : h.shapeAt a₁ = some t₁) (h2 : h.shapeAt a₂ = some t₂) (hb : h.shapeAt b = some s) (hid : Idle h b)
    (hl1 : IsLeaf t₁) (hl2 : IsLeaf t₂) (hs : IsLeaf s) (hany : s ≠ .any) (h12 : a₁ ≠ a₂) (h1b : a₁ ≠ b)
    (hrun : inherit (n + 1) a₁ b h = (.ok r, h₁)) :
    (inherit (m + 1) a₂ b h₁).1 = (inherit (m + 1) a₂ b h).1 ∧
    ((∃ x, (inherit (m + 1) a₂ b h).1 = .ok x) →
      (inherit (m + 1) a₂ b h₁).2.shapeAt a₂ = (inherit (m + 1) a₂ b h).2.shapeAt a₂) := by
  have hs2 : ∀ l e, s ≠ .union l e := by rintro l e rfl; exact hs.elim
  have scal : ∀ {t}, IsLeaf t → IsScalarTarget t := by intro t ht; cases t <;> first | trivial | exact ht.elim
  have hv := idle_visited hid
  have run1 := inherit_leaf h1 hb hv (scal hl1) hany hs2 n
  have frame : h₁.shapeAt a₂ = some t₂ ∧ h₁.shapeAt b = some s ∧ visitedAt h₁ b = some false := by
    cases hl : leafInherit t₁ s with
    | ok q =>
      rw [hl] at run1
      obtain ⟨h', e1, e2, e3, e4, e5, e6, e7⟩ := run1
      rw [hrun] at e1
      simp only [Prod.mk.injEq] at e1
      obtain ⟨_, rfl⟩ := e1
      exact ⟨by rw [e3 a₂ (Ne.symm h12), h2], by rw [e3 b (Ne.symm h1b), hb], by rw [e7, hv]⟩
    | err e => rw [hl] at run1; obtain ⟨h', e1⟩ := run1; rw [hrun] at e1; simp at e1
    | panic e => rw [hl] at run1; obtain ⟨h', e1⟩ := run1; rw [hrun] at e1; simp at e1
    | diverge => rw [hl] at run1; obtain ⟨h', e1⟩ := run1; rw [hrun] at e1; simp at e1
  have r1 := inherit_leaf frame.1 frame.2.1 frame.2.2 (scal hl2) hany hs2 m
  have r2 := inherit_leaf h2 hb hv (scal hl2) hany hs2 m
  cases hl : leafInherit t₂ s with
  | ok q =>
    rw [hl] at r1 r2
    obtain ⟨h', e1, e2, _⟩ := r1
    obtain ⟨h'', e1', e2', _⟩ := r2
    rw [e1, e1']
    exact ⟨rfl, fun _ => by rw [e2, e2']⟩
  | err e => rw [hl] at r1 r2; obtain ⟨h', e1⟩ := r1; obtain ⟨h'', e1'⟩ := r2; rw [e1, e1']; simp
  | panic e => rw [hl] at r1 r2; obtain ⟨h', e1⟩ := r1; obtain ⟨h'', e1'⟩ := r2; rw [e1, e1']; simp
  | diverge => rw [hl] at r1 r2; obtain ⟨h', e1⟩ := r1; obtain ⟨h'', e1'⟩ := r2; rw [e1, e1']; simp

/-- C20, arrays and objects: when two children meet the conditions of C16 for the same parent and share no cells, then
after the first has inherited successfully, a successful second call still narrows the parent and leaves the first child
as it was. -/
theorem c20_second_child_narrows (E : Ext) {n m : Nat} {h h₁ h₂ : St} {a₁ a₂ b r₁ r₂ : Addr}
    (m1 : MayNarrow E.reMatch h a₁ b) (m2 : MayNarrow E.reMatch h a₂ b) (d1 : Apart h a₁ b) (d2 : Apart h a₂ b)
    (d12 : Apart h a₁ a₂) (run1 : inherit n a₁ b h = (.ok r₁, h₁)) (run2 : inherit m a₂ b h₁ = (.ok r₂, h₂)) :
    (∀ v, Valid E h₂ a₂ v → Valid E h b v) ∧ (∀ v, Valid E h₂ a₁ v ↔ Valid E h₁ a₁ v) ∧
    (∀ v, Valid E h₂ b v ↔ Valid E h b v) := by
  have N1 := inherit_narrow E n h a₁ b h₁ r₁ m1 d1 run1
  have f2 : Agree (fun l => Part h a₂ l ∨ Part h b l) h h₁ :=
    N1.frame.mono fun l hl hl' => hl.elim (d12 l hl') (d1 l hl')
  have p2 : ∀ l, Part h₁ a₂ l ↔ Part h a₂ l := part_of_agree (f2.mono fun _ => Or.inl)
  have pb : ∀ l, Part h₁ b l ↔ Part h b l := part_of_agree (f2.mono fun _ => Or.inr)
  have vb : ∀ v, Valid E h₁ b v ↔ Valid E h b v := valid_agree (f2.mono fun _ => Or.inr)
  have d2' : Apart h₁ a₂ b := fun l h1 h2 => d2 l ((p2 l).1 h1) ((pb l).1 h2)
  have N2 := inherit_narrow E m h₁ a₂ b h₂ r₂ (m2.transport f2 fun x _ => N1.idle x) d2' run2
  refine ⟨fun v hv => (vb v).1 (N2.valid v hv), valid_agree (N2.frame.mono fun l hl hl' => ?_), fun v => ?_⟩
  · rcases N1.stays.part (Or.inl (.self a₁)) hl with h1 | h1
    · exact d12 l h1 ((p2 l).1 hl')
    · exact d2 l ((p2 l).1 hl') h1
  · rw [valid_agree (N2.frame.mono fun l hl hl' => d2' l hl' hl) v, vb]

/-- Two array children (0 and 2) of one parent (4), with items 1, 3 and 5. -/
def exSiblings : St :=
  heapOf [.array { items := some 1 }, .integer { minimum := some 1 }, .array { items := some 3 },
    .integer { maximum := some 3 }, .array { items := some 5 }, .integer { maximum := some 9 }]

/-- The hypotheses are met by arrays of integers: both calls succeed, and both children are narrowed. -/
example : ∃ h₁ h₂, MayNarrow exE.reMatch exSiblings 0 4 ∧ MayNarrow exE.reMatch exSiblings 2 4 ∧
    Apart exSiblings 0 4 ∧ Apart exSiblings 2 4 ∧ Apart exSiblings 0 2 ∧
    inherit 2 0 4 exSiblings = (.ok 0, h₁) ∧ inherit 2 2 4 h₁ = (.ok 2, h₂) ∧ Rejects exE h₂ 0 (.arr [.int 10]) := by
  refine ⟨_, _, ?_, ?_, ?_, ?_, ?_, M.run_ok (by decide +kernel), M.run_ok (by decide +kernel),
    ⟨3, "value must be less than", by decide +kernel⟩⟩
  · refine .array (f := { items := some 1 }) (g := { items := some 5 }) rfl rfl ⟨_, rfl, rfl⟩ ?_ ?_
    · intro i j hi hj; cases hi; cases hj
      exact .scalar (t := .integer { minimum := some 1 }) (s := .integer { maximum := some 9 }) rfl rfl ⟨_, rfl, rfl⟩ trivial
    · intro i j hi hj; cases hi; cases hj
      exact ⟨not_part_of_cells [1] [] [] (by decide +kernel) (by decide) (by simp [cellsIn]),
        not_part_of_cells [5] [] [] (by decide +kernel) (by decide) (by simp [cellsIn])⟩
  · refine .array (f := { items := some 3 }) (g := { items := some 5 }) rfl rfl ⟨_, rfl, rfl⟩ ?_ ?_
    · intro i j hi hj; cases hi; cases hj
      exact .scalar (t := .integer { maximum := some 3 }) (s := .integer { maximum := some 9 }) rfl rfl ⟨_, rfl, rfl⟩ trivial
    · intro i j hi hj; cases hi; cases hj
      exact ⟨not_part_of_cells [3] [] [] (by decide +kernel) (by decide) (by simp [cellsIn]),
        not_part_of_cells [5] [] [] (by decide +kernel) (by decide) (by simp [cellsIn])⟩
  · exact apart_of_cells [0, 1] [] [] [4, 5] [] [] (by decide +kernel) (by decide +kernel) (by decide) (by decide) (by simp)
  · exact apart_of_cells [2, 3] [] [] [4, 5] [] [] (by decide +kernel) (by decide +kernel) (by decide) (by decide) (by simp)
  · exact apart_of_cells [0, 1] [] [] [2, 3] [] [] (by decide +kernel) (by decide +kernel) (by decide) (by decide) (by simp)

end GoRaml.Props
