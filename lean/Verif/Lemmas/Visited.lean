import Verif.Lemmas.UnionInherit

/-! A type that is marked as visited stays marked through every `Inherit` call (C20). -/

namespace GoRaml

open Spec

/-- A visited base stays visited. -/
def VKeep (b : Addr) (h h' : St) : Prop := visitedAt h b = some true → visitedAt h' b = some true

section
variable {b : Addr}

theorem VKeep.rfl' (h : St) : VKeep b h h := fun h => h
theorem VKeep.tr (x y z : St) (h1 : VKeep b x y) (h2 : VKeep b y z) : VKeep b x z := fun h => h2 (h1 h)

theorem vkeep_ret {α : Type} (a : α) : Keeps (VKeep b) (M.ret a) := fun h => VKeep.rfl' h
theorem vkeep_err {α : Type} (e : String) : Keeps (VKeep b) (M.err (α := α) e) := fun h => VKeep.rfl' h
theorem vkeep_lift {α : Type} (o : Out α) : Keeps (VKeep b) (M.lift o) := fun h => VKeep.rfl' h
theorem vkeep_getBase (a : Addr) : Keeps (VKeep b) (Heap.getBase a) := by
  intro h; unfold Heap.getBase; cases h.base a <;> exact VKeep.rfl' h
theorem vkeep_getShape (a : Addr) : Keeps (VKeep b) (Heap.getShape a) := by
  intro h; unfold Heap.getShape; cases h.shapeAt a <;> exact VKeep.rfl' h
theorem vkeep_bases {h h' : St} (hb : h'.bases = h.bases) : VKeep b h h' := by
  intro hv; simpa [visitedAt, St.base, hb] using hv
theorem vkeep_get {α : Type} {f : St → M St α} (h1 : ∀ h, VKeep b h (f h h).2) : Keeps (VKeep b) (M.bind M.get f) :=
  fun h => h1 h

theorem vkeep_upd {a : Addr} {f : Base → Base} (hf : ∀ x, x.visited = true → (f x).visited = true) :
    Keeps (VKeep b) (Heap.updBase a f) := by
  intro h hv
  simp only [visitedAt, Heap.updBase] at hv ⊢
  rw [base_upd]
  cases hx : h.base b with
  | none => rw [hx] at hv; simp at hv
  | some y =>
    rw [hx] at hv
    simp only [Option.map_some, Option.some.injEq] at hv ⊢
    split
    · exact hf y hv
    · exact hv

theorem vkeep_upd_other {a : Addr} {f : Base → Base} (hab : a ≠ b) : Keeps (VKeep b) (Heap.updBase a f) := by
  intro h hv
  simp only [visitedAt, Heap.updBase] at hv ⊢
  rw [base_upd]
  cases hx : h.base b with
  | none => rw [hx] at hv; simp at hv
  | some y => rw [hx] at hv; simpa [hab] using hv

theorem vkeep_clone (n : Nat) (a : Addr) : Keeps (VKeep b) (cloneDetached n a) := by
  intro h hv
  have hA := above_clone (lo := h.bases.length) n a ⟨h, []⟩ (le_refl _)
  simp only at hA
  have hlt : b < h.bases.length := by
    by_contra hc
    simp [visitedAt, St.base, List.getElem?_eq_none (not_lt.1 hc)] at hv
  simp only [visitedAt] at hv ⊢
  rw [show (cloneDetached n a h).2.base b = h.base b from hA.bases b hlt]
  exact hv

variable {rec : Addr → Addr → M St Addr}

theorem vkeep_setShape (a : Addr) (s : Shape) : Keeps (VKeep b) (setShape a s) := vkeep_upd fun _ h => h
theorem vkeep_setArray (a : Addr) (f : ArrayF) : Keeps (VKeep b) (setArray a f) :=
  vkeep_upd fun x h => by split <;> exact h
theorem vkeep_setObject (a : Addr) (f : ObjectF) : Keeps (VKeep b) (setObject a f) :=
  vkeep_upd fun x h => by split <;> exact h

theorem vkeep_inheritClone (hr : ∀ a s, Keeps (VKeep b) (rec a s)) (a s : Addr) :
    Keeps (VKeep b) (inheritClone rec a s) := by
  refine vkeep_get fun h => ?_
  exact Keeps.tail VKeep.tr (vkeep_clone _ a) (fun c => Keeps.bind VKeep.tr (fun h => vkeep_bases rfl) fun id =>
    Keeps.bind VKeep.tr (vkeep_upd (by intro _ h; exact h)) fun _ => hr c s) h

theorem vkeep_inheritMember (hr : ∀ a s, Keeps (VKeep b) (rec a s)) (s : Addr) :
    ∀ l, Keeps (VKeep b) (inheritMember rec s l)
  | [] => vkeep_ret _
  | t :: ts => by
    unfold inheritMember
    refine Keeps.bind VKeep.tr (vkeep_getBase _) fun sb => Keeps.bind VKeep.tr (vkeep_getBase _) fun tb => ?_
    split
    · refine Keeps.bind VKeep.tr (Keeps.attempt (vkeep_inheritClone hr _ _)) fun r =>
        Keeps.bind VKeep.tr (vkeep_inheritMember hr s ts) fun rest => ?_
      cases r <;> exact vkeep_ret _
    · exact vkeep_inheritMember hr s ts

theorem vkeep_inheritMembers (hr : ∀ a s, Keeps (VKeep b) (rec a s)) (ts : List Addr) :
    ∀ l, Keeps (VKeep b) (inheritMembers rec ts l)
  | [] => vkeep_ret _
  | t :: l => by
    unfold inheritMembers
    refine Keeps.bind VKeep.tr (vkeep_inheritMember hr t ts) fun fl => ?_
    split
    · exact vkeep_err _
    · exact Keeps.bind VKeep.tr (vkeep_inheritMembers hr ts l) fun _ => vkeep_ret _

theorem vkeep_inheritUnion (hr : ∀ a s, Keeps (VKeep b) (rec a s)) (a s : Addr) : Keeps (VKeep b) (inheritUnion rec a s) := by
  refine vkeep_get fun h => ?_
  by_cases he : (h.slice (unionAt h a).1).isEmpty = true
  · rw [if_pos he]; exact vkeep_setShape _ _ h
  · rw [if_neg he]
    exact Keeps.tail VKeep.tr (vkeep_inheritMembers hr _ _) (fun l => Keeps.bind VKeep.tr (fun h => vkeep_bases rfl) fun i =>
      vkeep_setShape _ _) h

theorem vkeep_inheritProp (hr : ∀ a s, Keeps (VKeep b) (rec a s)) (i : Nat) (kp : String × Property) :
    Keeps (VKeep b) (inheritProp rec i kp) := by
  refine vkeep_get fun h => ?_
  cases hg : OMap.get (h.props (some i)) kp.1 with
  | some tp =>
    dsimp only
    split
    · exact VKeep.rfl' h
    · exact Keeps.tail VKeep.tr (hr _ _) (fun _ => vkeep_ret _) h
  | none => exact vkeep_bases rfl

theorem vkeep_inheritPatProp (hr : ∀ a s, Keeps (VKeep b) (rec a s)) (i : Nat) (kp : String × PatternProperty) :
    Keeps (VKeep b) (inheritPatProp rec i kp) := by
  refine vkeep_get fun h => ?_
  cases hg : OMap.get (h.patProps (some i)) kp.1 with
  | some tp => exact Keeps.tail VKeep.tr (hr _ _) (fun _ => vkeep_ret _) h
  | none => exact vkeep_bases rfl

theorem vkeep_inheritProperties (hr : ∀ a s, Keeps (VKeep b) (rec a s)) (a s : Addr) :
    Keeps (VKeep b) (inheritProperties rec a s) := by
  refine vkeep_get fun h => ?_
  cases ha : (objectAt h a).properties with
  | none => exact vkeep_setObject a _ h
  | some i =>
    cases hb : (objectAt h s).properties with
    | none => exact VKeep.rfl' h
    | some j => exact Keeps.forEach VKeep.rfl' VKeep.tr (vkeep_inheritProp hr _) _ h

theorem vkeep_inheritPatternProperties (hr : ∀ a s, Keeps (VKeep b) (rec a s)) (a s : Addr) :
    Keeps (VKeep b) (inheritPatternProperties rec a s) := by
  refine vkeep_get fun h => ?_
  cases ha : (objectAt h a).patternProperties with
  | none => exact vkeep_setObject a _ h
  | some i =>
    cases hb : (objectAt h s).patternProperties with
    | none => exact VKeep.rfl' h
    | some j => exact Keeps.forEach VKeep.rfl' VKeep.tr (vkeep_inheritPatProp hr _) _ h

theorem vkeep_inheritObject (hr : ∀ a s, Keeps (VKeep b) (rec a s)) (a s : Addr) : Keeps (VKeep b) (inheritObject rec a s) :=
  vkeep_get fun h => Keeps.tail VKeep.tr (vkeep_lift _) (fun f => Keeps.bind VKeep.tr (vkeep_setObject a f) fun _ =>
    Keeps.bind VKeep.tr (vkeep_inheritProperties hr a s) fun _ => vkeep_inheritPatternProperties hr a s) h

theorem vkeep_inheritArray (hr : ∀ a s, Keeps (VKeep b) (rec a s)) (a s : Addr) : Keeps (VKeep b) (inheritArray rec a s) := by
  refine vkeep_get fun h => ?_
  refine Keeps.tail VKeep.tr ?_ (fun _ => vkeep_get fun h => Keeps.tail VKeep.tr (vkeep_lift _)
    (fun f => vkeep_setArray a f) h) h
  split
  · exact vkeep_setArray _ _
  · exact Keeps.bind VKeep.tr (hr _ _) fun _ => vkeep_ret _
  · exact vkeep_ret _

theorem vkeep_inheritShape (hr : ∀ a s, Keeps (VKeep b) (rec a s)) (a s : Addr) (t src : Shape) :
    Keeps (VKeep b) (inheritShape rec a s t src) := by
  unfold inheritShape
  split
  · exact vkeep_inheritArray hr a s
  · exact vkeep_inheritObject hr a s
  · refine Keeps.bind VKeep.tr (vkeep_getShape _) fun s => ?_
    split
    · exact vkeep_inheritObject hr a _
    · exact vkeep_err _
  · exact vkeep_inheritUnion hr a s
  · exact vkeep_err _
  · exact vkeep_err _
  · exact vkeep_err _
  · exact Keeps.bind VKeep.tr (vkeep_lift _) fun _ => vkeep_setShape _ _

theorem vkeep_unionSourceLoop (hr : ∀ a s, Keeps (VKeep b) (rec a s)) (a : Addr) :
    ∀ l, Keeps (VKeep b) (unionSourceLoop rec a l)
  | [] => vkeep_ret _
  | m :: ms => by
    unfold unionSourceLoop
    refine Keeps.bind VKeep.tr (vkeep_getBase _) fun mb => ?_
    split
    · exact vkeep_ret _
    · refine Keeps.bind VKeep.tr (vkeep_getBase _) fun sb => ?_
      split
      · refine Keeps.bind VKeep.tr (Keeps.attempt (vkeep_inheritClone hr _ _)) fun r =>
          Keeps.bind VKeep.tr (vkeep_unionSourceLoop hr a ms) fun rest => ?_
        split <;> exact vkeep_ret _
      · exact vkeep_unionSourceLoop hr a ms

theorem vkeep_inheritUnionSource (hr : ∀ a s, Keeps (VKeep b) (rec a s)) (a : Addr) (l : List Addr) :
    Keeps (VKeep b) (inheritUnionSource rec a l) := by
  refine Keeps.bind VKeep.tr (vkeep_unionSourceLoop hr a l) fun r => ?_
  split
  · exact vkeep_ret _
  · exact vkeep_err _
  · exact vkeep_ret _
  · exact Keeps.bind VKeep.tr (fun h => vkeep_bases rfl) fun i => Keeps.bind VKeep.tr (vkeep_upd fun _ h => h) fun _ => vkeep_ret _

theorem vkeep_unionTargetLoop (hr : ∀ a s, Keeps (VKeep b) (rec a s)) (a : Addr) :
    ∀ l, Keeps (VKeep b) (unionTargetLoop rec a l)
  | [] => vkeep_ret _
  | m :: ms => by
    refine Keeps.bind VKeep.tr (Keeps.attempt (hr m a)) fun r =>
      Keeps.bind VKeep.tr (vkeep_unionTargetLoop hr a ms) fun rest => ?_
    cases r <;> exact vkeep_ret _

theorem vkeep_inheritUnionTarget (hr : ∀ a s, Keeps (VKeep b) (rec a s)) (a : Addr) (l : List Addr) :
    Keeps (VKeep b) (inheritUnionTarget rec a l) := by
  refine Keeps.bind VKeep.tr (vkeep_unionTargetLoop hr a l) fun r => ?_
  split
  · exact vkeep_err _
  · exact vkeep_ret _

theorem vkeep_inheritFacets (a s : Addr) : Keeps (VKeep b) (inheritFacets a s) := by
  refine Keeps.bind VKeep.tr (vkeep_getBase _) fun _ => Keeps.bind VKeep.tr (vkeep_getBase _) fun src => ?_
  split
  · exact vkeep_upd fun _ h => h
  · exact vkeep_ret _
  · refine fun h => Keeps.forEach VKeep.rfl' VKeep.tr (fun kv h => ?_) _ h
    unfold inheritFacet
    split
    · exact VKeep.rfl' h
    · exact vkeep_bases rfl

theorem vkeep_inheritDispatch (hr : ∀ a s, Keeps (VKeep b) (rec a s)) {a s : Addr} (hs : s ≠ b) :
    Keeps (VKeep b) (inheritDispatch rec a s) := by
  have hend : Keeps (VKeep b) (M.bind (Heap.updBase s fun x => { x with visited := false }) fun _ => M.ret a) :=
    Keeps.bind VKeep.tr (vkeep_upd_other hs) fun _ => vkeep_ret a
  unfold inheritDispatch
  refine Keeps.bind VKeep.tr (vkeep_getBase _) fun ba => Keeps.bind VKeep.tr (vkeep_getBase _) fun src => ?_
  intro h
  have hUU := Keeps.tail VKeep.tr (vkeep_inheritUnion hr a s) (fun _ => hend) h
  have hfin : ∀ t sr, VKeep b h (M.bind (inheritShape rec a s t sr) (fun _ =>
      M.bind (Heap.updBase s fun x => { x with visited := false }) fun _ => M.ret a) h).2 :=
    fun t sr => Keeps.tail VKeep.tr (vkeep_inheritShape hr a s t sr) (fun _ => hend) h
  cases hS : src.shape with
  | none =>
    cases hT : ba.shape with
    | none => exact VKeep.rfl' h
    | some t => cases t <;> first | exact VKeep.rfl' h | exact vkeep_inheritUnionTarget hr a _ h
  | some sh =>
    cases hT : ba.shape with
    | none => cases sh <;> first | exact VKeep.rfl' h | exact vkeep_inheritUnionSource hr a _ h
    | some t =>
      by_cases hu : ∃ l e, t = .union l e
      · obtain ⟨l, e, rfl⟩ := hu
        cases sh <;> first | exact VKeep.rfl' h | exact hUU | exact vkeep_inheritUnionTarget hr a _ h
      · cases sh with
        | any => exact VKeep.rfl' h
        | union l e =>
          cases t with
          | union l e => exact absurd ⟨l, e, rfl⟩ hu
          | _ => exact vkeep_inheritUnionSource hr a _ h
        | _ =>
          cases t with
          | union l e => exact absurd ⟨l, e, rfl⟩ hu
          | _ => exact hfin _ _

end

/-- A base that is marked stays marked through `Inherit`, whatever the outcome. -/
theorem vkeep_inherit (b : Addr) : ∀ n a s, Keeps (VKeep b) (inherit n a s)
  | 0, _, _ => fun h => VKeep.rfl' h
  | n + 1, a, s => by
    intro h hv
    by_cases hs : s = b
    · subst hs
      unfold inherit
      cases ha : h.base a with
      | none => simp only [M.bind, Heap.getBase, ha]; exact hv
      | some ba =>
        rw [M.bind_of_ok (a := ba) (s' := h) (by simp [Heap.getBase, ha])]
        obtain ⟨bs, hbs, hbv⟩ : ∃ bs, h.base s = some bs ∧ bs.visited = true := by
          simpa [visitedAt] using hv
        rw [M.bind_of_ok (a := bs) (s' := h) (by simp [Heap.getBase, hbs])]
        rw [if_pos hbv]; exact hv
    · revert hv
      change VKeep b h _
      unfold inherit
      refine Keeps.tail VKeep.tr (vkeep_getBase _) (fun _ => Keeps.bind VKeep.tr (vkeep_getBase _) fun src => ?_) h
      split
      · exact vkeep_ret _
      · exact Keeps.bind VKeep.tr (vkeep_upd fun _ _ => rfl) fun _ =>
          Keeps.bind VKeep.tr (vkeep_upd fun _ h => h) fun _ =>
          Keeps.bind VKeep.tr (vkeep_inheritFacets a s) fun _ => vkeep_inheritDispatch (vkeep_inherit b n) hs

end GoRaml
