import Verif.Lemmas.Visited
import Verif.Model.Mark

/-! A type that is marked as unwrapped and has a shape stays so through cloning, `Inherit`, `AliasTo` and `UnwrapShape`. -/

namespace GoRaml

open Spec

/-- The base has a shape and is marked as unwrapped. -/
def doneAt (h : St) (b : Addr) : Prop := ∃ x, h.base b = some x ∧ x.unwrapped = true ∧ x.shape.isSome = true

/-- An unwrapped base stays unwrapped. -/
def DKeep (b : Addr) (h h' : St) : Prop := doneAt h b → doneAt h' b

section
variable {b : Addr}

theorem DKeep.rfl' (h : St) : DKeep b h h := fun h => h
theorem DKeep.tr (x y z : St) (h1 : DKeep b x y) (h2 : DKeep b y z) : DKeep b x z := fun h => h2 (h1 h)

theorem dkeep_ret {α : Type} (a : α) : Keeps (DKeep b) (M.ret a) := fun h => DKeep.rfl' h
theorem dkeep_err {α : Type} (e : String) : Keeps (DKeep b) (M.err (α := α) e) := fun h => DKeep.rfl' h
theorem dkeep_diverge {α : Type} : Keeps (DKeep b) (M.diverge (α := α)) := fun h => DKeep.rfl' h
theorem dkeep_lift {α : Type} (o : Out α) : Keeps (DKeep b) (M.lift o) := fun h => DKeep.rfl' h
theorem dkeep_getBase (a : Addr) : Keeps (DKeep b) (Heap.getBase a) := by
  intro h; unfold Heap.getBase; cases h.base a <;> exact DKeep.rfl' h
theorem dkeep_getShape (a : Addr) : Keeps (DKeep b) (Heap.getShape a) := by
  intro h; unfold Heap.getShape; cases h.shapeAt a <;> exact DKeep.rfl' h
theorem dkeep_bases {h h' : St} (hb : h'.bases = h.bases) : DKeep b h h' := by
  intro hv; simpa [doneAt, St.base, hb] using hv
theorem dkeep_get {α : Type} {f : St → M St α} (h1 : ∀ h, DKeep b h (f h h).2) : Keeps (DKeep b) (M.bind M.get f) :=
  fun h => h1 h

theorem dkeep_upd {a : Addr} {f : Base → Base} (hf : ∀ x, x.unwrapped = true ∧ x.shape.isSome = true →
    (f x).unwrapped = true ∧ (f x).shape.isSome = true) : Keeps (DKeep b) (Heap.updBase a f) := by
  rintro h ⟨x, hx, hd⟩
  simp only [doneAt, Heap.updBase]
  rw [base_upd, hx]
  refine ⟨_, rfl, ?_⟩
  split
  · exact hf x hd
  · exact hd

theorem dkeep_clone (n : Nat) (a : Addr) : Keeps (DKeep b) (cloneDetached n a) := by
  rintro h ⟨x, hx, hd⟩
  have hA := above_clone (lo := h.bases.length) n a ⟨h, []⟩ (le_refl _)
  simp only at hA
  have hlt : b < h.bases.length := by
    by_contra hc
    simp [St.base, List.getElem?_eq_none (not_lt.1 hc)] at hx
  refine ⟨x, ?_, hd⟩
  rw [show (cloneDetached n a h).2.base b = h.base b from hA.bases b hlt]
  exact hx

variable {rec : Addr → Addr → M St Addr}

theorem dkeep_setShape (a : Addr) (s : Shape) : Keeps (DKeep b) (setShape a s) := dkeep_upd fun _ h => ⟨h.1, rfl⟩
theorem dkeep_setArray (a : Addr) (f : ArrayF) : Keeps (DKeep b) (setArray a f) :=
  dkeep_upd fun x h => by split <;> first | exact h | exact ⟨h.1, rfl⟩
theorem dkeep_setObject (a : Addr) (f : ObjectF) : Keeps (DKeep b) (setObject a f) :=
  dkeep_upd fun x h => by split <;> first | exact h | exact ⟨h.1, rfl⟩

theorem dkeep_inheritClone (hr : ∀ a s, Keeps (DKeep b) (rec a s)) (a s : Addr) :
    Keeps (DKeep b) (inheritClone rec a s) := by
  refine dkeep_get fun h => ?_
  exact Keeps.tail DKeep.tr (dkeep_clone _ a) (fun c => Keeps.bind DKeep.tr (fun h => dkeep_bases rfl) fun id =>
    Keeps.bind DKeep.tr (dkeep_upd (by intro _ h; exact h)) fun _ => hr c s) h

theorem dkeep_inheritMember (hr : ∀ a s, Keeps (DKeep b) (rec a s)) (s : Addr) :
    ∀ l, Keeps (DKeep b) (inheritMember rec s l)
  | [] => dkeep_ret _
  | t :: ts => by
    unfold inheritMember
    refine Keeps.bind DKeep.tr (dkeep_getBase _) fun sb => Keeps.bind DKeep.tr (dkeep_getBase _) fun tb => ?_
    split
    · refine Keeps.bind DKeep.tr (Keeps.attempt (dkeep_inheritClone hr _ _)) fun r =>
        Keeps.bind DKeep.tr (dkeep_inheritMember hr s ts) fun rest => ?_
      cases r <;> exact dkeep_ret _
    · exact dkeep_inheritMember hr s ts

theorem dkeep_inheritMembers (hr : ∀ a s, Keeps (DKeep b) (rec a s)) (ts : List Addr) :
    ∀ l, Keeps (DKeep b) (inheritMembers rec ts l)
  | [] => dkeep_ret _
  | t :: l => by
    unfold inheritMembers
    refine Keeps.bind DKeep.tr (dkeep_inheritMember hr t ts) fun fl => ?_
    split
    · exact dkeep_err _
    · exact Keeps.bind DKeep.tr (dkeep_inheritMembers hr ts l) fun _ => dkeep_ret _

theorem dkeep_inheritUnion (hr : ∀ a s, Keeps (DKeep b) (rec a s)) (a s : Addr) : Keeps (DKeep b) (inheritUnion rec a s) := by
  refine dkeep_get fun h => ?_
  by_cases he : (h.slice (unionAt h a).1).isEmpty = true
  · rw [if_pos he]; exact dkeep_setShape _ _ h
  · rw [if_neg he]
    exact Keeps.tail DKeep.tr (dkeep_inheritMembers hr _ _) (fun l => Keeps.bind DKeep.tr (fun h => dkeep_bases rfl) fun i =>
      dkeep_setShape _ _) h

theorem dkeep_inheritProp (hr : ∀ a s, Keeps (DKeep b) (rec a s)) (i : Nat) (kp : String × Property) :
    Keeps (DKeep b) (inheritProp rec i kp) := by
  refine dkeep_get fun h => ?_
  cases hg : OMap.get (h.props (some i)) kp.1 with
  | some tp =>
    dsimp only
    split
    · exact DKeep.rfl' h
    · exact Keeps.tail DKeep.tr (hr _ _) (fun _ => dkeep_ret _) h
  | none => exact dkeep_bases rfl

theorem dkeep_inheritPatProp (hr : ∀ a s, Keeps (DKeep b) (rec a s)) (i : Nat) (kp : String × PatternProperty) :
    Keeps (DKeep b) (inheritPatProp rec i kp) := by
  refine dkeep_get fun h => ?_
  cases hg : OMap.get (h.patProps (some i)) kp.1 with
  | some tp => exact Keeps.tail DKeep.tr (hr _ _) (fun _ => dkeep_ret _) h
  | none => exact dkeep_bases rfl

theorem dkeep_inheritProperties (hr : ∀ a s, Keeps (DKeep b) (rec a s)) (a s : Addr) :
    Keeps (DKeep b) (inheritProperties rec a s) := by
  refine dkeep_get fun h => ?_
  cases ha : (objectAt h a).properties with
  | none => exact dkeep_setObject a _ h
  | some i =>
    cases hb : (objectAt h s).properties with
    | none => exact DKeep.rfl' h
    | some j => exact Keeps.forEach DKeep.rfl' DKeep.tr (dkeep_inheritProp hr _) _ h

theorem dkeep_inheritPatternProperties (hr : ∀ a s, Keeps (DKeep b) (rec a s)) (a s : Addr) :
    Keeps (DKeep b) (inheritPatternProperties rec a s) := by
  refine dkeep_get fun h => ?_
  cases ha : (objectAt h a).patternProperties with
  | none => exact dkeep_setObject a _ h
  | some i =>
    cases hb : (objectAt h s).patternProperties with
    | none => exact DKeep.rfl' h
    | some j => exact Keeps.forEach DKeep.rfl' DKeep.tr (dkeep_inheritPatProp hr _) _ h

theorem dkeep_inheritObject (hr : ∀ a s, Keeps (DKeep b) (rec a s)) (a s : Addr) : Keeps (DKeep b) (inheritObject rec a s) :=
  dkeep_get fun h => Keeps.tail DKeep.tr (dkeep_lift _) (fun f => Keeps.bind DKeep.tr (dkeep_setObject a f) fun _ =>
    Keeps.bind DKeep.tr (dkeep_inheritProperties hr a s) fun _ => dkeep_inheritPatternProperties hr a s) h

theorem dkeep_inheritArray (hr : ∀ a s, Keeps (DKeep b) (rec a s)) (a s : Addr) : Keeps (DKeep b) (inheritArray rec a s) := by
  refine dkeep_get fun h => ?_
  refine Keeps.tail DKeep.tr ?_ (fun _ => dkeep_get fun h => Keeps.tail DKeep.tr (dkeep_lift _)
    (fun f => dkeep_setArray a f) h) h
  split
  · exact dkeep_setArray _ _
  · exact Keeps.bind DKeep.tr (hr _ _) fun _ => dkeep_ret _
  · exact dkeep_ret _

theorem dkeep_inheritShape (hr : ∀ a s, Keeps (DKeep b) (rec a s)) (a s : Addr) (t src : Shape) :
    Keeps (DKeep b) (inheritShape rec a s t src) := by
  unfold inheritShape
  split
  · exact dkeep_inheritArray hr a s
  · exact dkeep_inheritObject hr a s
  · refine Keeps.bind DKeep.tr (dkeep_getShape _) fun s => ?_
    split
    · exact dkeep_inheritObject hr a _
    · exact dkeep_err _
  · exact dkeep_inheritUnion hr a s
  · exact dkeep_err _
  · exact dkeep_err _
  · exact dkeep_err _
  · exact Keeps.bind DKeep.tr (dkeep_lift _) fun _ => dkeep_setShape _ _

theorem dkeep_unionSourceLoop (hr : ∀ a s, Keeps (DKeep b) (rec a s)) (a : Addr) :
    ∀ l, Keeps (DKeep b) (unionSourceLoop rec a l)
  | [] => dkeep_ret _
  | m :: ms => by
    unfold unionSourceLoop
    refine Keeps.bind DKeep.tr (dkeep_getBase _) fun mb => ?_
    split
    · exact dkeep_ret _
    · refine Keeps.bind DKeep.tr (dkeep_getBase _) fun sb => ?_
      split
      · refine Keeps.bind DKeep.tr (Keeps.attempt (dkeep_inheritClone hr _ _)) fun r =>
          Keeps.bind DKeep.tr (dkeep_unionSourceLoop hr a ms) fun rest => ?_
        split <;> exact dkeep_ret _
      · exact dkeep_unionSourceLoop hr a ms

theorem dkeep_inheritUnionSource (hr : ∀ a s, Keeps (DKeep b) (rec a s)) (a : Addr) (l : List Addr) :
    Keeps (DKeep b) (inheritUnionSource rec a l) := by
  refine Keeps.bind DKeep.tr (dkeep_unionSourceLoop hr a l) fun r => ?_
  split
  · exact dkeep_ret _
  · exact dkeep_err _
  · exact dkeep_ret _
  · exact Keeps.bind DKeep.tr (fun h => dkeep_bases rfl) fun i => Keeps.bind DKeep.tr (dkeep_upd fun _ h => ⟨h.1, rfl⟩) fun _ => dkeep_ret _

theorem dkeep_unionTargetLoop (hr : ∀ a s, Keeps (DKeep b) (rec a s)) (a : Addr) :
    ∀ l, Keeps (DKeep b) (unionTargetLoop rec a l)
  | [] => dkeep_ret _
  | m :: ms => by
    refine Keeps.bind DKeep.tr (Keeps.attempt (hr m a)) fun r =>
      Keeps.bind DKeep.tr (dkeep_unionTargetLoop hr a ms) fun rest => ?_
    cases r <;> exact dkeep_ret _

theorem dkeep_inheritUnionTarget (hr : ∀ a s, Keeps (DKeep b) (rec a s)) (a : Addr) (l : List Addr) :
    Keeps (DKeep b) (inheritUnionTarget rec a l) := by
  refine Keeps.bind DKeep.tr (dkeep_unionTargetLoop hr a l) fun r => ?_
  split
  · exact dkeep_err _
  · exact dkeep_ret _

theorem dkeep_inheritFacets (a s : Addr) : Keeps (DKeep b) (inheritFacets a s) := by
  refine Keeps.bind DKeep.tr (dkeep_getBase _) fun _ => Keeps.bind DKeep.tr (dkeep_getBase _) fun src => ?_
  split
  · exact dkeep_upd fun _ h => h
  · exact dkeep_ret _
  · refine fun h => Keeps.forEach DKeep.rfl' DKeep.tr (fun kv h => ?_) _ h
    unfold inheritFacet
    split
    · exact DKeep.rfl' h
    · exact dkeep_bases rfl

theorem dkeep_inheritDispatch (hr : ∀ a s, Keeps (DKeep b) (rec a s)) (a s : Addr) :
    Keeps (DKeep b) (inheritDispatch rec a s) := by
  have hend : Keeps (DKeep b) (M.bind (Heap.updBase s fun x => { x with visited := false }) fun _ => M.ret a) :=
    Keeps.bind DKeep.tr (dkeep_upd fun _ h => h) fun _ => dkeep_ret a
  unfold inheritDispatch
  refine Keeps.bind DKeep.tr (dkeep_getBase _) fun ba => Keeps.bind DKeep.tr (dkeep_getBase _) fun src => ?_
  intro h
  have hUU := Keeps.tail DKeep.tr (dkeep_inheritUnion hr a s) (fun _ => hend) h
  have hfin : ∀ t sr, DKeep b h (M.bind (inheritShape rec a s t sr) (fun _ =>
      M.bind (Heap.updBase s fun x => { x with visited := false }) fun _ => M.ret a) h).2 :=
    fun t sr => Keeps.tail DKeep.tr (dkeep_inheritShape hr a s t sr) (fun _ => hend) h
  cases hS : src.shape with
  | none =>
    cases hT : ba.shape with
    | none => exact DKeep.rfl' h
    | some t => cases t <;> first | exact DKeep.rfl' h | exact dkeep_inheritUnionTarget hr a _ h
  | some sh =>
    cases hT : ba.shape with
    | none => cases sh <;> first | exact DKeep.rfl' h | exact dkeep_inheritUnionSource hr a _ h
    | some t =>
      by_cases hu : ∃ l e, t = .union l e
      · obtain ⟨l, e, rfl⟩ := hu
        cases sh <;> first | exact DKeep.rfl' h | exact hUU | exact dkeep_inheritUnionTarget hr a _ h
      · cases sh with
        | any => exact DKeep.rfl' h
        | union l e =>
          cases t with
          | union l e => exact absurd ⟨l, e, rfl⟩ hu
          | _ => exact dkeep_inheritUnionSource hr a _ h
        | _ =>
          cases t with
          | union l e => exact absurd ⟨l, e, rfl⟩ hu
          | _ => exact hfin _ _

end

/-- An unwrapped base stays so through `Inherit`, whatever the outcome. -/
theorem dkeep_inherit (b : Addr) : ∀ n a s, Keeps (DKeep b) (inherit n a s)
  | 0, _, _ => fun h => DKeep.rfl' h
  | n + 1, a, s => by
    unfold inherit
    refine Keeps.bind DKeep.tr (dkeep_getBase _) fun _ => Keeps.bind DKeep.tr (dkeep_getBase _) fun src => ?_
    split
    · exact dkeep_ret _
    · exact Keeps.bind DKeep.tr (dkeep_upd fun _ h => h) fun _ =>
        Keeps.bind DKeep.tr (dkeep_upd fun _ h => h) fun _ =>
        Keeps.bind DKeep.tr (dkeep_inheritFacets a s) fun _ => dkeep_inheritDispatch (dkeep_inherit b n) a s

section
variable {b : Addr}

theorem dkeep_aliasTo (a s : Addr) : Keeps (DKeep b) (aliasTo a s) :=
  Keeps.bind DKeep.tr (dkeep_getShape _) fun _ => Keeps.bind DKeep.tr (dkeep_getShape _) fun _ =>
  Keeps.bind DKeep.tr (dkeep_lift _) fun _ => Keeps.bind DKeep.tr (dkeep_setShape _ _) fun _ =>
  Keeps.bind DKeep.tr (dkeep_getBase _) fun _ => Keeps.bind DKeep.tr (dkeep_upd fun _ h => h) fun _ => dkeep_ret _

theorem dkeep_when {α : Type} {f : α → M St Unit} (hf : ∀ x, Keeps (DKeep b) (f x)) (p : Option α) :
    Keeps (DKeep b) (whenSome p f) := by
  cases p with
  | none => exact dkeep_ret _
  | some x => exact hf x

variable {rec : Addr → M St Addr}

theorem dkeep_unwrapProps (hr : ∀ a, Keeps (DKeep b) (rec a)) (i : Nat) :
    ∀ n k, Keeps (DKeep b) (unwrapProps rec i n k)
  | 0, _ => dkeep_diverge
  | n + 1, k => by
    intro h
    unfold unwrapProps
    split
    · exact DKeep.rfl' h
    · exact Keeps.tail DKeep.tr (hr _) (fun _ => Keeps.bind DKeep.tr (fun _ => dkeep_bases rfl) fun _ =>
        dkeep_unwrapProps hr i n _) h

theorem dkeep_unwrapPatProps (hr : ∀ a, Keeps (DKeep b) (rec a)) (i : Nat) :
    ∀ n k, Keeps (DKeep b) (unwrapPatProps rec i n k)
  | 0, _ => dkeep_diverge
  | n + 1, k => by
    intro h
    unfold unwrapPatProps
    split
    · exact DKeep.rfl' h
    · exact Keeps.tail DKeep.tr (hr _) (fun _ => Keeps.bind DKeep.tr (fun _ => dkeep_bases rfl) fun _ =>
        dkeep_unwrapPatProps hr i n _) h

theorem dkeep_unwrapMembers (hr : ∀ a, Keeps (DKeep b) (rec a)) (i : Nat) :
    ∀ n k, Keeps (DKeep b) (unwrapMembers rec i n k)
  | 0, _ => dkeep_diverge
  | n + 1, k => by
    intro h
    unfold unwrapMembers
    split
    · exact DKeep.rfl' h
    · exact Keeps.tail DKeep.tr (hr _) (fun _ => Keeps.bind DKeep.tr (fun _ => dkeep_bases rfl) fun _ =>
        dkeep_unwrapMembers hr i n _) h

theorem dkeep_unwrapTarget (hr : ∀ a, Keeps (DKeep b) (rec a)) (n : Nat) (a : Addr) :
    Keeps (DKeep b) (unwrapTarget rec n a) := by
  refine dkeep_get fun h => ?_
  suffices hk : ∀ s, Keeps (DKeep b) (unwrapTargetShape rec n a s) from hk _ h
  clear h
  intro s
  unfold unwrapTargetShape
  split
  · exact dkeep_when (fun i => Keeps.bind DKeep.tr (hr i) fun us h' => dkeep_setArray _ _ h') _
  · exact Keeps.bind DKeep.tr (dkeep_when (fun i => dkeep_unwrapProps hr i n 0) _)
      (fun _ h' => dkeep_when (fun i => dkeep_unwrapPatProps hr i n 0) _ h')
  · exact dkeep_when (fun i => dkeep_unwrapMembers hr i n 0) _
  · exact dkeep_ret _

theorem dkeep_unwrapMoreParents (hr : ∀ a, Keeps (DKeep b) (rec a)) (n : Nat) (ss : Addr) (i : Nat) :
    ∀ l k, Keeps (DKeep b) (unwrapMoreParents rec n ss i l k)
  | 0, _ => dkeep_ret _
  | l + 1, k => by
    intro h
    unfold unwrapMoreParents
    split
    · exact DKeep.rfl' h
    · exact Keeps.tail DKeep.tr (hr _) (fun _ => Keeps.bind DKeep.tr (dkeep_inherit b _ _ _) fun _ =>
        Keeps.bind DKeep.tr (fun _ => dkeep_bases rfl) fun _ => dkeep_unwrapMoreParents hr n ss i l _) h

theorem dkeep_unwrapParents (hr : ∀ a, Keeps (DKeep b) (rec a)) (n : Nat) (a : Addr) :
    Keeps (DKeep b) (unwrapParents rec n a) := by
  refine Keeps.bind DKeep.tr (dkeep_getBase _) fun x h => ?_
  split
  · split
    · exact DKeep.rfl' h
    · exact Keeps.tail DKeep.tr (hr _) (fun _ => Keeps.bind DKeep.tr (dkeep_upd (by intro _ h; exact h)) fun _ => dkeep_ret _) h
  · split
    · exact Keeps.tail DKeep.tr (hr _) (fun _ => Keeps.bind DKeep.tr (fun _ => dkeep_bases rfl) fun _ =>
        Keeps.bind DKeep.tr (dkeep_unwrapMoreParents hr _ _ _ _ _) fun _ => dkeep_ret _) h
    · exact DKeep.rfl' h

theorem dkeep_setProp (i : Nat) (k : String) (p : Property) : Keeps (DKeep b) (Heap.setProp i k p) := fun _ => dkeep_bases rfl

theorem dkeep_newProps (m : OMap Property) : Keeps (DKeep b) (Heap.newProps m) := fun _ => dkeep_bases rfl

theorem dkeep_unwrapFacetDefs (hr : ∀ a, Keeps (DKeep b) (rec a)) (a : Addr) (i : Nat) :
    ∀ n k, Keeps (DKeep b) (unwrapFacetDefs rec a i n k)
  | 0, _ => dkeep_diverge
  | n + 1, k => by
    intro h
    unfold unwrapFacetDefs
    split
    · exact DKeep.rfl' h
    · exact Keeps.tail DKeep.tr (hr _) (fun _ => Keeps.bind DKeep.tr (dkeep_newProps _) fun _ =>
        Keeps.bind DKeep.tr (dkeep_upd (by intro _ h; exact h)) fun _ => Keeps.bind DKeep.tr (dkeep_getBase _) fun _ =>
        Keeps.bind DKeep.tr (dkeep_when (fun i => dkeep_setProp i _ _) _) fun _ => dkeep_unwrapFacetDefs hr a i n _) h

theorem dkeep_unwrapFinish (n : Nat) (a : Addr) (s : Option Addr) : Keeps (DKeep b) (unwrapFinish n a s) := by
  refine Keeps.bind DKeep.tr ?_ fun _ => Keeps.bind DKeep.tr (fun _ => dkeep_bases rfl) fun _ => dkeep_ret _
  cases s with
  | none => exact dkeep_ret _
  | some x => exact dkeep_inherit b _ _ _

end

/-- An unwrapped base stays so through `UnwrapShape`, whatever the outcome. -/
theorem dkeep_unwrap (b : Addr) : ∀ n a, Keeps (DKeep b) (unwrap n a)
  | 0, _ => fun h => DKeep.rfl' h
  | n + 1, a => by
    have hr := dkeep_unwrap b n
    unfold unwrap
    refine Keeps.bind DKeep.tr (dkeep_getBase _) fun x => ?_
    split
    · exact dkeep_err _
    · split
      · exact dkeep_ret _
      · refine Keeps.bind DKeep.tr (dkeep_upd fun _ h => ⟨rfl, h.2⟩) fun _ => ?_
        split
        · exact Keeps.bind DKeep.tr (hr _) fun _ => Keeps.bind DKeep.tr (fun _ => dkeep_bases rfl) fun _ => dkeep_aliasTo _ _
        · exact Keeps.bind DKeep.tr (dkeep_unwrapParents hr _ _) fun _ =>
            Keeps.bind DKeep.tr (dkeep_unwrapTarget hr _ _) fun _ => Keeps.bind DKeep.tr (dkeep_getBase _) fun _ =>
            Keeps.bind DKeep.tr (dkeep_when (fun _ => dkeep_unwrapFacetDefs hr _ _ _ _) _) fun _ => dkeep_unwrapFinish _ _ _

end GoRaml
