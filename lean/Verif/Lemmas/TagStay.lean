import Verif.Lemmas.Visited
import Verif.Model.UnwrapAll

/-! Unwrapping and marking leave the fragments that are registered alone, whatever happens. -/

namespace GoRaml.Stay

open GoRaml GoRaml.Spec

/-- The same fragments are registered. -/
structure NKeep (h h' : St) : Prop where
  frags : h'.fragments = h.fragments

/-- So they are when cloning. -/
structure CAbove (t t' : CSt) : Prop where
  frags : t'.h.fragments = t.h.fragments

section
variable {rec : Addr → M CSt Addr}

theorem CAbove.rfl' (t : CSt) : CAbove t t := ⟨rfl⟩
theorem CAbove.tr (a b c : CSt) (h1 : CAbove a b) (h2 : CAbove b c) : CAbove a c := ⟨h2.frags.trans h1.frags⟩

theorem above_getBase (a : Addr) : Keeps CAbove (onHeap (Heap.getBase a)) := by
  intro h; unfold onHeap Heap.getBase; cases h.h.base a <;> exact CAbove.rfl' h

theorem above_cloneProps (hr : ∀ a, Keeps CAbove (rec a)) (ps : OMap Property) :
    Keeps CAbove (cloneProps rec ps) :=
  Keeps.collect CAbove.rfl' CAbove.tr (fun kp => Keeps.bind CAbove.tr (hr _) fun _ => keeps_ret CAbove.rfl' _) ps

theorem above_clonePatProps (hr : ∀ a, Keeps CAbove (rec a)) (ps : OMap PatternProperty) :
    Keeps CAbove (clonePatProps rec ps) :=
  Keeps.collect CAbove.rfl' CAbove.tr (fun kp => Keeps.bind CAbove.tr (hr _) fun _ => keeps_ret CAbove.rfl' _) ps

theorem above_cloneShape (hr : ∀ a, Keeps CAbove (rec a)) (s : Shape) : Keeps CAbove (cloneShape rec s) := by
  cases s with
  | array f => exact Keeps.bind CAbove.tr (keeps_opt CAbove.rfl' CAbove.tr hr _) fun _ => keeps_ret CAbove.rfl' _
  | object f =>
    refine Keeps.bind CAbove.tr (keeps_opt CAbove.rfl' CAbove.tr (fun i => ?_) _) fun _ =>
      Keeps.bind CAbove.tr (keeps_opt CAbove.rfl' CAbove.tr (fun i => ?_) _) fun _ => keeps_ret CAbove.rfl' _
    · intro t
      exact Keeps.bind CAbove.tr (above_cloneProps hr _) (fun ps _ => ⟨rfl⟩) t
    · intro t
      exact Keeps.bind CAbove.tr (above_clonePatProps hr _) (fun ps _ => ⟨rfl⟩) t
  | union l e =>
    refine Keeps.bind CAbove.tr (fun t => ?_) fun _ => keeps_ret CAbove.rfl' _
    exact Keeps.bind CAbove.tr (Keeps.collect CAbove.rfl' CAbove.tr hr _) (fun l _ => ⟨rfl⟩) t
  | _ => exact keeps_ret CAbove.rfl' _

theorem above_clone (n : Nat) : ∀ a, Keeps CAbove (fun t => clone n a t) := by
  induction n with
  | zero => intro a t; exact CAbove.rfl' t
  | succ n ih =>
    intro a t
    have hr : ∀ a, Keeps CAbove (clone n a) := ih
    simp only [clone]
    refine Keeps.bind CAbove.tr (above_getBase a) (fun s t => ?_) t
    rw [M.get_bind]
    cases memoGet t.memo s.id with
    | some c => exact CAbove.rfl' t
    | none =>
      refine Keeps.bind CAbove.tr (m := onHeap (Heap.newBase s)) (fun _ => ⟨rfl⟩) (fun c => Keeps.bind CAbove.tr (m := memoPut s.id c) (fun _ => ⟨rfl⟩) fun _ => ?_) t
      unfold cloneFill
      refine Keeps.bind CAbove.tr (fun t => ⟨rfl⟩) (fun fm => ?_)
      refine Keeps.bind CAbove.tr (fun t => Keeps.bind CAbove.tr (above_cloneProps hr _)
        (fun ps _ => ⟨rfl⟩) t) (fun fd => ?_)
      refine Keeps.bind CAbove.tr (keeps_opt CAbove.rfl' CAbove.tr hr _) fun al => ?_
      refine Keeps.bind CAbove.tr (keeps_opt CAbove.rfl' CAbove.tr (fun i t => ?_) _) fun inh => ?_
      · exact Keeps.bind CAbove.tr (Keeps.collect CAbove.rfl' CAbove.tr hr _) (fun l _ => ⟨rfl⟩) t
      refine Keeps.bind CAbove.tr (keeps_opt CAbove.rfl' CAbove.tr (fun i t => ?_) _) fun lk => ?_
      · unfold cloneLink
        split
        · exact CAbove.rfl' t
        · split
          · exact CAbove.rfl' t
          · exact Keeps.bind CAbove.tr (hr _) (fun c _ => ⟨rfl⟩) t
      cases s.shape with
      | none => exact fun t => CAbove.rfl' t
      | some sh =>
        refine Keeps.bind CAbove.tr (above_cloneShape hr sh) fun sh' => ?_
        exact Keeps.bind CAbove.tr (fun t2 => ⟨rfl⟩) fun _ => keeps_ret CAbove.rfl' _

end

section

theorem NKeep.rfl' (h : St) : NKeep h h := ⟨rfl⟩
theorem NKeep.tr (x y z : St) (h1 : NKeep x y) (h2 : NKeep y z) : NKeep x z := ⟨h2.frags.trans h1.frags⟩

theorem nkeep_ret {α : Type} (a : α) : Keeps NKeep (M.ret a) := fun h => NKeep.rfl' h
theorem nkeep_err {α : Type} (e : String) : Keeps NKeep (M.err (α := α) e) := fun h => NKeep.rfl' h
theorem nkeep_lift {α : Type} (o : Out α) : Keeps NKeep (M.lift o) := fun h => NKeep.rfl' h
theorem nkeep_getBase (a : Addr) : Keeps NKeep (Heap.getBase a) := by
  intro h; unfold Heap.getBase; cases h.base a <;> exact NKeep.rfl' h
theorem nkeep_getShape (a : Addr) : Keeps NKeep (Heap.getShape a) := by
  intro h; unfold Heap.getShape; cases h.shapeAt a <;> exact NKeep.rfl' h
theorem nkeep_bases {h h' : St} (h1 : h'.fragments = h.fragments) : NKeep h h' := ⟨h1⟩
theorem nkeep_get {α : Type} {f : St → M St α} (h1 : ∀ h, NKeep h (f h h).2) : Keeps NKeep (M.bind M.get f) :=
  fun h => h1 h

theorem nkeep_upd {a : Addr} {f : Base → Base} : Keeps NKeep (Heap.updBase a f) := fun _ => ⟨rfl⟩

theorem nkeep_clone (n : Nat) (a : Addr) : Keeps NKeep (cloneDetached n a) := fun h => ⟨(above_clone n a ⟨h, []⟩).frags⟩

variable {rec : Addr → Addr → M St Addr}

theorem nkeep_setShape (a : Addr) (s : Shape) : Keeps NKeep (setShape a s) := nkeep_upd
theorem nkeep_setArray (a : Addr) (f : ArrayF) : Keeps NKeep (setArray a f) :=
  nkeep_upd
theorem nkeep_setObject (a : Addr) (f : ObjectF) : Keeps NKeep (setObject a f) :=
  nkeep_upd

theorem nkeep_inheritClone (hr : ∀ a s, Keeps NKeep (rec a s)) (a s : Addr) :
    Keeps NKeep (inheritClone rec a s) := by
  refine nkeep_get fun h => ?_
  exact Keeps.tail NKeep.tr (nkeep_clone _ a) (fun c => Keeps.bind NKeep.tr (fun h => by exact nkeep_bases rfl) fun id =>
    Keeps.bind NKeep.tr (nkeep_upd) fun _ => hr c s) h

theorem nkeep_inheritMember (hr : ∀ a s, Keeps NKeep (rec a s)) (s : Addr) :
    ∀ l, Keeps NKeep (inheritMember rec s l)
  | [] => nkeep_ret _
  | t :: ts => by
    unfold inheritMember
    refine Keeps.bind NKeep.tr (nkeep_getBase _) fun sb => Keeps.bind NKeep.tr (nkeep_getBase _) fun tb => ?_
    split
    · refine Keeps.bind NKeep.tr (Keeps.attempt (nkeep_inheritClone hr _ _)) fun r =>
        Keeps.bind NKeep.tr (nkeep_inheritMember hr s ts) fun rest => ?_
      cases r <;> exact nkeep_ret _
    · exact nkeep_inheritMember hr s ts

theorem nkeep_inheritMembers (hr : ∀ a s, Keeps NKeep (rec a s)) (ts : List Addr) :
    ∀ l, Keeps NKeep (inheritMembers rec ts l)
  | [] => nkeep_ret _
  | t :: l => by
    unfold inheritMembers
    refine Keeps.bind NKeep.tr (nkeep_inheritMember hr t ts) fun fl => ?_
    split
    · exact nkeep_err _
    · exact Keeps.bind NKeep.tr (nkeep_inheritMembers hr ts l) fun _ => nkeep_ret _

theorem nkeep_inheritUnion (hr : ∀ a s, Keeps NKeep (rec a s)) (a s : Addr) : Keeps NKeep (inheritUnion rec a s) := by
  refine nkeep_get fun h => ?_
  by_cases he : (h.slice (unionAt h a).1).isEmpty = true
  · rw [if_pos he]; exact nkeep_setShape _ _ h
  · rw [if_neg he]
    exact Keeps.tail NKeep.tr (nkeep_inheritMembers hr _ _) (fun l => Keeps.bind NKeep.tr (fun h => by exact nkeep_bases rfl) fun i =>
      nkeep_setShape _ _) h

theorem nkeep_inheritProp (hr : ∀ a s, Keeps NKeep (rec a s)) (i : Nat) (kp : String × Property) :
    Keeps NKeep (inheritProp rec i kp) := by
  refine nkeep_get fun h => ?_
  cases hg : OMap.get (h.props (some i)) kp.1 with
  | some tp =>
    dsimp only
    split
    · exact NKeep.rfl' h
    · exact Keeps.tail NKeep.tr (hr _ _) (fun _ => nkeep_ret _) h
  | none => exact by exact nkeep_bases rfl

theorem nkeep_inheritPatProp (hr : ∀ a s, Keeps NKeep (rec a s)) (i : Nat) (kp : String × PatternProperty) :
    Keeps NKeep (inheritPatProp rec i kp) := by
  refine nkeep_get fun h => ?_
  cases hg : OMap.get (h.patProps (some i)) kp.1 with
  | some tp => exact Keeps.tail NKeep.tr (hr _ _) (fun _ => nkeep_ret _) h
  | none => exact by exact nkeep_bases rfl

theorem nkeep_inheritProperties (hr : ∀ a s, Keeps NKeep (rec a s)) (a s : Addr) :
    Keeps NKeep (inheritProperties rec a s) := by
  refine nkeep_get fun h => ?_
  cases ha : (objectAt h a).properties with
  | none => exact nkeep_setObject a _ h
  | some i =>
    cases hb : (objectAt h s).properties with
    | none => exact NKeep.rfl' h
    | some j => exact Keeps.forEach NKeep.rfl' NKeep.tr (nkeep_inheritProp hr _) _ h

theorem nkeep_inheritPatternProperties (hr : ∀ a s, Keeps NKeep (rec a s)) (a s : Addr) :
    Keeps NKeep (inheritPatternProperties rec a s) := by
  refine nkeep_get fun h => ?_
  cases ha : (objectAt h a).patternProperties with
  | none => exact nkeep_setObject a _ h
  | some i =>
    cases hb : (objectAt h s).patternProperties with
    | none => exact NKeep.rfl' h
    | some j => exact Keeps.forEach NKeep.rfl' NKeep.tr (nkeep_inheritPatProp hr _) _ h

theorem nkeep_inheritObject (hr : ∀ a s, Keeps NKeep (rec a s)) (a s : Addr) : Keeps NKeep (inheritObject rec a s) :=
  nkeep_get fun h => Keeps.tail NKeep.tr (nkeep_lift _) (fun f => Keeps.bind NKeep.tr (nkeep_setObject a f) fun _ =>
    Keeps.bind NKeep.tr (nkeep_inheritProperties hr a s) fun _ => nkeep_inheritPatternProperties hr a s) h

theorem nkeep_inheritArray (hr : ∀ a s, Keeps NKeep (rec a s)) (a s : Addr) : Keeps NKeep (inheritArray rec a s) := by
  refine nkeep_get fun h => ?_
  refine Keeps.tail NKeep.tr ?_ (fun _ => nkeep_get fun h => Keeps.tail NKeep.tr (nkeep_lift _)
    (fun f => nkeep_setArray a f) h) h
  split
  · exact nkeep_setArray _ _
  · exact Keeps.bind NKeep.tr (hr _ _) fun _ => nkeep_ret _
  · exact nkeep_ret _

theorem nkeep_inheritShape (hr : ∀ a s, Keeps NKeep (rec a s)) (a s : Addr) (t src : Shape) :
    Keeps NKeep (inheritShape rec a s t src) := by
  unfold inheritShape
  split
  · exact nkeep_inheritArray hr a s
  · exact nkeep_inheritObject hr a s
  · refine Keeps.bind NKeep.tr (nkeep_getShape _) fun s => ?_
    split
    · exact nkeep_inheritObject hr a _
    · exact nkeep_err _
  · exact nkeep_inheritUnion hr a s
  · exact nkeep_err _
  · exact nkeep_err _
  · exact nkeep_err _
  · exact Keeps.bind NKeep.tr (nkeep_lift _) fun _ => nkeep_setShape _ _

theorem nkeep_unionSourceLoop (hr : ∀ a s, Keeps NKeep (rec a s)) (a : Addr) :
    ∀ l, Keeps NKeep (unionSourceLoop rec a l)
  | [] => nkeep_ret _
  | m :: ms => by
    unfold unionSourceLoop
    refine Keeps.bind NKeep.tr (nkeep_getBase _) fun mb => ?_
    split
    · exact nkeep_ret _
    · refine Keeps.bind NKeep.tr (nkeep_getBase _) fun sb => ?_
      split
      · refine Keeps.bind NKeep.tr (Keeps.attempt (nkeep_inheritClone hr _ _)) fun r =>
          Keeps.bind NKeep.tr (nkeep_unionSourceLoop hr a ms) fun rest => ?_
        split <;> exact nkeep_ret _
      · exact nkeep_unionSourceLoop hr a ms

theorem nkeep_inheritUnionSource (hr : ∀ a s, Keeps NKeep (rec a s)) (a : Addr) (l : List Addr) :
    Keeps NKeep (inheritUnionSource rec a l) := by
  refine Keeps.bind NKeep.tr (nkeep_unionSourceLoop hr a l) fun r => ?_
  split
  · exact nkeep_ret _
  · exact nkeep_err _
  · exact nkeep_ret _
  · exact Keeps.bind NKeep.tr (fun h => by exact nkeep_bases rfl) fun i => Keeps.bind NKeep.tr (nkeep_upd) fun _ => nkeep_ret _

theorem nkeep_unionTargetLoop (hr : ∀ a s, Keeps NKeep (rec a s)) (a : Addr) :
    ∀ l, Keeps NKeep (unionTargetLoop rec a l)
  | [] => nkeep_ret _
  | m :: ms => by
    refine Keeps.bind NKeep.tr (Keeps.attempt (hr m a)) fun r =>
      Keeps.bind NKeep.tr (nkeep_unionTargetLoop hr a ms) fun rest => ?_
    cases r <;> exact nkeep_ret _

theorem nkeep_inheritUnionTarget (hr : ∀ a s, Keeps NKeep (rec a s)) (a : Addr) (l : List Addr) :
    Keeps NKeep (inheritUnionTarget rec a l) := by
  refine Keeps.bind NKeep.tr (nkeep_unionTargetLoop hr a l) fun r => ?_
  split
  · exact nkeep_err _
  · exact nkeep_ret _

theorem nkeep_inheritFacets (a s : Addr) : Keeps NKeep (inheritFacets a s) := by
  refine Keeps.bind NKeep.tr (nkeep_getBase _) fun _ => Keeps.bind NKeep.tr (nkeep_getBase _) fun src => ?_
  split
  · exact nkeep_upd
  · exact nkeep_ret _
  · refine fun h => Keeps.forEach NKeep.rfl' NKeep.tr (fun kv h => ?_) _ h
    unfold inheritFacet
    split
    · exact NKeep.rfl' h
    · exact by exact nkeep_bases rfl

theorem nkeep_inheritDispatch (hr : ∀ a s, Keeps NKeep (rec a s)) (a s : Addr) :
    Keeps NKeep (inheritDispatch rec a s) := by
  have hend : Keeps NKeep (M.bind (Heap.updBase s fun x => { x with visited := false }) fun _ => M.ret a) :=
    Keeps.bind NKeep.tr (nkeep_upd) fun _ => nkeep_ret a
  unfold inheritDispatch
  refine Keeps.bind NKeep.tr (nkeep_getBase _) fun ba => Keeps.bind NKeep.tr (nkeep_getBase _) fun src => ?_
  intro h
  have hUU := Keeps.tail NKeep.tr (nkeep_inheritUnion hr a s) (fun _ => hend) h
  have hfin : ∀ t sr, NKeep h (M.bind (inheritShape rec a s t sr) (fun _ =>
      M.bind (Heap.updBase s fun x => { x with visited := false }) fun _ => M.ret a) h).2 :=
    fun t sr => Keeps.tail NKeep.tr (nkeep_inheritShape hr a s t sr) (fun _ => hend) h
  cases hS : src.shape with
  | none =>
    cases hT : ba.shape with
    | none => exact NKeep.rfl' h
    | some t => cases t <;> first | exact NKeep.rfl' h | exact nkeep_inheritUnionTarget hr a _ h
  | some sh =>
    cases hT : ba.shape with
    | none => cases sh <;> first | exact NKeep.rfl' h | exact nkeep_inheritUnionSource hr a _ h
    | some t =>
      by_cases hu : ∃ l e, t = .union l e
      · obtain ⟨l, e, rfl⟩ := hu
        cases sh <;> first | exact NKeep.rfl' h | exact hUU | exact nkeep_inheritUnionTarget hr a _ h
      · cases sh with
        | any => exact NKeep.rfl' h
        | union l e =>
          cases t with
          | union l e => exact absurd ⟨l, e, rfl⟩ hu
          | _ => exact nkeep_inheritUnionSource hr a _ h
        | _ =>
          cases t with
          | union l e => exact absurd ⟨l, e, rfl⟩ hu
          | _ => exact hfin _ _

end

theorem nkeep_inherit : ∀ n a s, Keeps NKeep (inherit n a s)
  | 0, _, _ => fun h => NKeep.rfl' h
  | n + 1, a, s => by
    unfold inherit
    refine Keeps.bind NKeep.tr (nkeep_getBase _) (fun _ => Keeps.bind NKeep.tr (nkeep_getBase _) fun src => ?_)
    split
    · exact nkeep_ret _
    · exact Keeps.bind NKeep.tr (nkeep_upd) fun _ =>
        Keeps.bind NKeep.tr (nkeep_upd) fun _ =>
        Keeps.bind NKeep.tr (nkeep_inheritFacets a s) fun _ => nkeep_inheritDispatch (nkeep_inherit n) a s

section

theorem nkeep_diverge {α : Type} : Keeps NKeep (M.diverge (α := α)) := fun h => NKeep.rfl' h


theorem nkeep_aliasTo (a s : Addr) : Keeps NKeep (aliasTo a s) :=
  Keeps.bind NKeep.tr (nkeep_getShape _) fun _ => Keeps.bind NKeep.tr (nkeep_getShape _) fun _ =>
  Keeps.bind NKeep.tr (nkeep_lift _) fun _ => Keeps.bind NKeep.tr (nkeep_setShape _ _) fun _ =>
  Keeps.bind NKeep.tr (nkeep_getBase _) fun _ => Keeps.bind NKeep.tr (nkeep_upd) fun _ => nkeep_ret _

theorem nkeep_when {α : Type} {f : α → M St Unit} (hf : ∀ x, Keeps NKeep (f x)) (p : Option α) :
    Keeps NKeep (whenSome p f) := by
  cases p with
  | none => exact nkeep_ret _
  | some x => exact hf x

variable {rec : Addr → M St Addr}

theorem nkeep_unwrapProps (hr : ∀ a, Keeps NKeep (rec a)) (i : Nat) :
    ∀ n k, Keeps NKeep (unwrapProps rec i n k)
  | 0, _ => nkeep_diverge
  | n + 1, k => by
    intro h
    unfold unwrapProps
    split
    · exact NKeep.rfl' h
    · exact Keeps.tail NKeep.tr (hr _) (fun _ => Keeps.bind NKeep.tr (fun _ => by exact nkeep_bases rfl) fun _ =>
        nkeep_unwrapProps hr i n _) h

theorem nkeep_unwrapPatProps (hr : ∀ a, Keeps NKeep (rec a)) (i : Nat) :
    ∀ n k, Keeps NKeep (unwrapPatProps rec i n k)
  | 0, _ => nkeep_diverge
  | n + 1, k => by
    intro h
    unfold unwrapPatProps
    split
    · exact NKeep.rfl' h
    · exact Keeps.tail NKeep.tr (hr _) (fun _ => Keeps.bind NKeep.tr (fun _ => by exact nkeep_bases rfl) fun _ =>
        nkeep_unwrapPatProps hr i n _) h

theorem nkeep_unwrapMembers (hr : ∀ a, Keeps NKeep (rec a)) (i : Nat) :
    ∀ n k, Keeps NKeep (unwrapMembers rec i n k)
  | 0, _ => nkeep_diverge
  | n + 1, k => by
    intro h
    unfold unwrapMembers
    split
    · exact NKeep.rfl' h
    · exact Keeps.tail NKeep.tr (hr _) (fun _ => Keeps.bind NKeep.tr (fun _ => by exact nkeep_bases rfl) fun _ =>
        nkeep_unwrapMembers hr i n _) h

theorem nkeep_unwrapTarget (hr : ∀ a, Keeps NKeep (rec a)) (n : Nat) (a : Addr) :
    Keeps NKeep (unwrapTarget rec n a) := by
  refine nkeep_get fun h => ?_
  suffices hk : ∀ s, Keeps NKeep (unwrapTargetShape rec n a s) from hk _ h
  clear h
  intro s
  unfold unwrapTargetShape
  split
  · exact nkeep_when (fun i => Keeps.bind NKeep.tr (hr i) fun us h' => nkeep_setArray _ _ h') _
  · exact Keeps.bind NKeep.tr (nkeep_when (fun i => nkeep_unwrapProps hr i n 0) _)
      (fun _ h' => nkeep_when (fun i => nkeep_unwrapPatProps hr i n 0) _ h')
  · exact nkeep_when (fun i => nkeep_unwrapMembers hr i n 0) _
  · exact nkeep_ret _

theorem nkeep_unwrapMoreParents (hr : ∀ a, Keeps NKeep (rec a)) (n : Nat) (ss : Addr) (i : Nat) :
    ∀ l k, Keeps NKeep (unwrapMoreParents rec n ss i l k)
  | 0, _ => nkeep_ret _
  | l + 1, k => by
    intro h
    unfold unwrapMoreParents
    split
    · exact NKeep.rfl' h
    · exact Keeps.tail NKeep.tr (hr _) (fun _ => Keeps.bind NKeep.tr (nkeep_inherit _ _ _) fun _ =>
        Keeps.bind NKeep.tr (fun _ => by exact nkeep_bases rfl) fun _ => nkeep_unwrapMoreParents hr n ss i l _) h

theorem nkeep_unwrapParents (hr : ∀ a, Keeps NKeep (rec a)) (n : Nat) (a : Addr) :
    Keeps NKeep (unwrapParents rec n a) := by
  refine Keeps.bind NKeep.tr (nkeep_getBase _) fun x h => ?_
  split
  · split
    · exact NKeep.rfl' h
    · exact Keeps.tail NKeep.tr (hr _) (fun _ => Keeps.bind NKeep.tr (nkeep_upd) fun _ => nkeep_ret _) h
  · split
    · exact Keeps.tail NKeep.tr (hr _) (fun _ => Keeps.bind NKeep.tr (fun _ => by exact nkeep_bases rfl) fun _ =>
        Keeps.bind NKeep.tr (nkeep_unwrapMoreParents hr _ _ _ _ _) fun _ => nkeep_ret _) h
    · exact NKeep.rfl' h

theorem nkeep_setProp (i : Nat) (k : String) (p : Property) : Keeps NKeep (Heap.setProp i k p) := fun _ => by exact nkeep_bases rfl

theorem nkeep_newProps (m : OMap Property) : Keeps NKeep (Heap.newProps m) := fun _ => by exact nkeep_bases rfl

theorem nkeep_unwrapFacetDefs (hr : ∀ a, Keeps NKeep (rec a)) (a : Addr) (i : Nat) :
    ∀ n k, Keeps NKeep (unwrapFacetDefs rec a i n k)
  | 0, _ => nkeep_diverge
  | n + 1, k => by
    intro h
    unfold unwrapFacetDefs
    split
    · exact NKeep.rfl' h
    · exact Keeps.tail NKeep.tr (hr _) (fun _ => Keeps.bind NKeep.tr (nkeep_newProps _) fun _ =>
        Keeps.bind NKeep.tr (nkeep_upd) fun _ => Keeps.bind NKeep.tr (nkeep_getBase _) fun _ =>
        Keeps.bind NKeep.tr (nkeep_when (fun i => nkeep_setProp i _ _) _) fun _ => nkeep_unwrapFacetDefs hr a i n _) h

theorem nkeep_unwrapFinish (n : Nat) (a : Addr) (s : Option Addr) : Keeps NKeep (unwrapFinish n a s) := by
  refine Keeps.bind NKeep.tr ?_ fun _ => Keeps.bind NKeep.tr (fun _ => by exact nkeep_bases rfl) fun _ => nkeep_ret _
  cases s with
  | none => exact nkeep_ret _
  | some x => exact nkeep_inherit _ _ _

end

/-- Names and locations stay through `UnwrapShape`, whatever the outcome. -/
theorem nkeep_unwrap : ∀ n a, Keeps NKeep (unwrap n a)
  | 0, _ => fun h => NKeep.rfl' h
  | n + 1, a => by
    have hr := nkeep_unwrap n
    unfold unwrap
    refine Keeps.bind NKeep.tr (nkeep_getBase _) fun x => ?_
    split
    · exact nkeep_err _
    · split
      · exact nkeep_ret _
      · refine Keeps.bind NKeep.tr (nkeep_upd) fun _ => ?_
        split
        · exact Keeps.bind NKeep.tr (hr _) fun _ => Keeps.bind NKeep.tr (fun _ => by exact nkeep_bases rfl) fun _ => nkeep_aliasTo _ _
        · exact Keeps.bind NKeep.tr (nkeep_unwrapParents hr _ _) fun _ =>
            Keeps.bind NKeep.tr (nkeep_unwrapTarget hr _ _) fun _ => Keeps.bind NKeep.tr (nkeep_getBase _) fun _ =>
            Keeps.bind NKeep.tr (nkeep_when (fun _ => nkeep_unwrapFacetDefs hr _ _ _ _) _) fun _ => nkeep_unwrapFinish _ _ _

theorem nkeep_same {α : Type} {m : M St α} (h : ∀ s, (m s).2.fragments = s.fragments) : Keeps NKeep m := fun s => ⟨h s⟩

theorem nkeep_whenSome {α : Type} {p : Option α} {f : α → M St Unit} (h : ∀ x, Keeps NKeep (f x)) : Keeps NKeep (whenSome p f) := by
  cases p with
  | none => exact nkeep_same fun _ => rfl
  | some x => exact h x

theorem nkeep_tryEach {α : Type} {f : α → M St Unit} (h : ∀ x, Keeps NKeep (f x)) : ∀ l, Keeps NKeep (M.tryEach f l)
  | [] => fun s => .rfl' s
  | x :: l => Keeps.bind NKeep.tr (Keeps.attempt (h x)) fun r => Keeps.bind NKeep.tr (Keeps.attempt (nkeep_tryEach h l)) fun r' => by
      intro s
      cases r <;> cases r' <;> exact .rfl' s

theorem nkeep_makeRecursive (a : Addr) (b : Base) : Keeps NKeep (makeRecursive a b) := fun _ => ⟨rfl⟩

section
variable {rec : Addr → M St (Option Addr)} (hr : ∀ a, Keeps NKeep (rec a))
include hr

theorem nkeep_markProps (i : Nat) : Keeps NKeep (markProps rec i) := fun s =>
  Keeps.forEach NKeep.rfl' NKeep.tr (fun k s => by
    unfold markProp
    split
    · exact .rfl' s
    · exact Keeps.bind NKeep.tr (hr _) (fun _ => nkeep_whenSome fun _ => nkeep_same fun _ => rfl) s) _ s

theorem nkeep_markPatProps (i : Nat) : Keeps NKeep (markPatProps rec i) := fun s =>
  Keeps.forEach NKeep.rfl' NKeep.tr (fun k s => by
    unfold markPatProp
    split
    · exact .rfl' s
    · exact Keeps.bind NKeep.tr (hr _) (fun _ => nkeep_whenSome fun _ => nkeep_same fun _ => rfl) s) _ s

theorem nkeep_markMembers (i : Nat) : Keeps NKeep (markMembers rec i) := fun s =>
  Keeps.forEach NKeep.rfl' NKeep.tr (fun k s => by
    unfold markMember
    split
    · exact .rfl' s
    · exact Keeps.bind NKeep.tr (hr _) (fun _ => nkeep_whenSome fun _ => nkeep_same fun _ => rfl) s) _ s

theorem nkeep_markShape (a : Addr) (sh : Option Shape) : Keeps NKeep (markShape rec a sh) := by
  unfold markShape
  split
  · exact nkeep_whenSome fun i => Keeps.bind NKeep.tr (hr i) fun _ => nkeep_whenSome fun _ => nkeep_setArray _ _
  · exact Keeps.bind NKeep.tr (nkeep_whenSome fun i => nkeep_markProps hr i) fun _ => nkeep_whenSome fun i => nkeep_markPatProps hr i
  · exact nkeep_whenSome fun i => nkeep_markMembers hr i
  · exact fun s => .rfl' s

end

theorem nkeep_mark : ∀ n a, Keeps NKeep (mark n a)
  | 0, _ => fun s => .rfl' s
  | n + 1, a => by
    unfold mark
    refine Keeps.bind NKeep.tr (nkeep_getBase a) fun b => ?_
    split
    · exact fun s => .rfl' s
    · split
      · exact Keeps.bind NKeep.tr (nkeep_makeRecursive a b) fun r => Keeps.bind NKeep.tr (nkeep_upd) fun _ s => .rfl' s
      · exact Keeps.bind NKeep.tr (nkeep_upd) fun _ => Keeps.bind NKeep.tr (nkeep_markShape (nkeep_mark n) a _) fun _ =>
          Keeps.bind NKeep.tr (nkeep_upd) fun _ => Keeps.bind NKeep.tr (nkeep_whenSome fun i => nkeep_markProps (nkeep_mark n) i) fun _ s => .rfl' s

theorem nkeep_unwrapType (n : Nat) (c : Sect) (i : Nat) (loc : String) (ka : String × Addr) : Keeps NKeep (unwrapType n c i loc ka) :=
  Keeps.bind NKeep.tr (nkeep_unwrap n _) fun us => Keeps.bind NKeep.tr (nkeep_same fun _ => rfl) fun _ => Keeps.bind NKeep.tr (nkeep_getBase us) fun u => by
    cases c <;> exact nkeep_same fun _ => rfl

theorem nkeep_unwrapDataType (n i : Nat) (d : DT) : Keeps NKeep (unwrapDataType n i d) := by
  unfold unwrapDataType
  split
  · exact fun s => .rfl' s
  · exact Keeps.bind NKeep.tr (nkeep_unwrap n _) fun us => Keeps.bind NKeep.tr (nkeep_same fun _ => rfl) fun _ => Keeps.bind NKeep.tr (nkeep_getBase us) fun u =>
      nkeep_same fun _ => rfl

theorem nkeep_unwrapFragment (n : Nat) (f : FragRef) : Keeps NKeep (unwrapFragment n f) := fun s => by
  unfold unwrapFragment
  cases f with
  | library i =>
    dsimp only
    split
    · exact .rfl' s
    · rename_i l _
      exact nkeep_tryEach (f := fun c => unwrapTypes n c i l) (fun c => nkeep_tryEach (fun ka => nkeep_unwrapType n c i l.location ka) _) [.annotationTypes, .types] s
  | dataType i =>
    dsimp only
    split
    · exact .rfl' s
    · exact nkeep_unwrapDataType n i _ s
  | namedExample i => exact .rfl' s

theorem nkeep_markFragment (n : Nat) (f : FragRef) : Keeps NKeep (markFragment n f) := fun s => by
  unfold markFragment
  cases f with
  | library i =>
    dsimp only
    split
    · exact .rfl' s
    · exact Keeps.forEach NKeep.rfl' NKeep.tr (fun ka => Keeps.bind NKeep.tr (nkeep_mark n _) fun _ s => .rfl' s) _ s
  | dataType i =>
    dsimp only
    split
    · exact .rfl' s
    · exact Keeps.bind NKeep.tr (nkeep_mark n _) (fun _ s => .rfl' s) s
  | namedExample i => exact .rfl' s

theorem nkeep_unwrapDomainExtension (i : Nat) : Keeps NKeep (unwrapDomainExtension i) := fun s => by
  unfold unwrapDomainExtension
  split
  · exact .rfl' s
  · exact Keeps.bind NKeep.tr (nkeep_lift _) (fun _ => nkeep_same fun _ => rfl) s

theorem nkeep_unwrapShapes (n : Nat) (fs fs' : List FragRef) : Keeps NKeep (unwrapShapes n fs fs') :=
  Keeps.bind NKeep.tr (nkeep_same fun _ => rfl) fun _ => Keeps.bind NKeep.tr (nkeep_tryEach (nkeep_unwrapFragment n) fs) fun _ =>
    Keeps.bind NKeep.tr (Keeps.forEach NKeep.rfl' NKeep.tr (nkeep_markFragment n) fs') fun _ s => nkeep_tryEach nkeep_unwrapDomainExtension _ s

end GoRaml.Stay
