import Verif.Lemmas.Visited
import Verif.Model.Mark

/-! A type that is marked as visited stays marked through `AliasTo` and `UnwrapShape`. -/

namespace GoRaml

open Spec

section
variable {b : Addr}

theorem vkeep_diverge {α : Type} : Keeps (VKeep b) (M.diverge (α := α)) := fun h => VKeep.rfl' h


theorem vkeep_aliasTo (a s : Addr) : Keeps (VKeep b) (aliasTo a s) :=
  Keeps.bind VKeep.tr (vkeep_getShape _) fun _ => Keeps.bind VKeep.tr (vkeep_getShape _) fun _ =>
  Keeps.bind VKeep.tr (vkeep_lift _) fun _ => Keeps.bind VKeep.tr (vkeep_setShape _ _) fun _ =>
  Keeps.bind VKeep.tr (vkeep_getBase _) fun _ => Keeps.bind VKeep.tr (vkeep_upd fun _ h => h) fun _ => vkeep_ret _

theorem vkeep_when {α : Type} {f : α → M St Unit} (hf : ∀ x, Keeps (VKeep b) (f x)) (p : Option α) :
    Keeps (VKeep b) (whenSome p f) := by
  cases p with
  | none => exact vkeep_ret _
  | some x => exact hf x

variable {rec : Addr → M St Addr}

theorem vkeep_unwrapProps (hr : ∀ a, Keeps (VKeep b) (rec a)) (i : Nat) :
    ∀ n k, Keeps (VKeep b) (unwrapProps rec i n k)
  | 0, _ => vkeep_diverge
  | n + 1, k => by
    intro h
    unfold unwrapProps
    split
    · exact VKeep.rfl' h
    · exact Keeps.tail VKeep.tr (hr _) (fun _ => Keeps.bind VKeep.tr (fun _ => vkeep_bases rfl) fun _ =>
        vkeep_unwrapProps hr i n _) h

theorem vkeep_unwrapPatProps (hr : ∀ a, Keeps (VKeep b) (rec a)) (i : Nat) :
    ∀ n k, Keeps (VKeep b) (unwrapPatProps rec i n k)
  | 0, _ => vkeep_diverge
  | n + 1, k => by
    intro h
    unfold unwrapPatProps
    split
    · exact VKeep.rfl' h
    · exact Keeps.tail VKeep.tr (hr _) (fun _ => Keeps.bind VKeep.tr (fun _ => vkeep_bases rfl) fun _ =>
        vkeep_unwrapPatProps hr i n _) h

theorem vkeep_unwrapMembers (hr : ∀ a, Keeps (VKeep b) (rec a)) (i : Nat) :
    ∀ n k, Keeps (VKeep b) (unwrapMembers rec i n k)
  | 0, _ => vkeep_diverge
  | n + 1, k => by
    intro h
    unfold unwrapMembers
    split
    · exact VKeep.rfl' h
    · exact Keeps.tail VKeep.tr (hr _) (fun _ => Keeps.bind VKeep.tr (fun _ => vkeep_bases rfl) fun _ =>
        vkeep_unwrapMembers hr i n _) h

theorem vkeep_unwrapTarget (hr : ∀ a, Keeps (VKeep b) (rec a)) (n : Nat) (a : Addr) :
    Keeps (VKeep b) (unwrapTarget rec n a) := by
  refine vkeep_get fun h => ?_
  suffices hk : ∀ s, Keeps (VKeep b) (unwrapTargetShape rec n a s) from hk _ h
  clear h
  intro s
  unfold unwrapTargetShape
  split
  · exact vkeep_when (fun i => Keeps.bind VKeep.tr (hr i) fun us h' => vkeep_setArray _ _ h') _
  · exact Keeps.bind VKeep.tr (vkeep_when (fun i => vkeep_unwrapProps hr i n 0) _)
      (fun _ h' => vkeep_when (fun i => vkeep_unwrapPatProps hr i n 0) _ h')
  · exact vkeep_when (fun i => vkeep_unwrapMembers hr i n 0) _
  · exact vkeep_ret _

theorem vkeep_unwrapMoreParents (hr : ∀ a, Keeps (VKeep b) (rec a)) (n : Nat) (ss : Addr) (i : Nat) :
    ∀ l k, Keeps (VKeep b) (unwrapMoreParents rec n ss i l k)
  | 0, _ => vkeep_ret _
  | l + 1, k => by
    intro h
    unfold unwrapMoreParents
    split
    · exact VKeep.rfl' h
    · exact Keeps.tail VKeep.tr (hr _) (fun _ => Keeps.bind VKeep.tr (vkeep_inherit b _ _ _) fun _ =>
        Keeps.bind VKeep.tr (fun _ => vkeep_bases rfl) fun _ => vkeep_unwrapMoreParents hr n ss i l _) h

theorem vkeep_unwrapParents (hr : ∀ a, Keeps (VKeep b) (rec a)) (n : Nat) (a : Addr) :
    Keeps (VKeep b) (unwrapParents rec n a) := by
  refine Keeps.bind VKeep.tr (vkeep_getBase _) fun x h => ?_
  split
  · split
    · exact VKeep.rfl' h
    · exact Keeps.tail VKeep.tr (hr _) (fun _ => Keeps.bind VKeep.tr (vkeep_upd (by intro _ h; exact h)) fun _ => vkeep_ret _) h
  · split
    · exact Keeps.tail VKeep.tr (hr _) (fun _ => Keeps.bind VKeep.tr (fun _ => vkeep_bases rfl) fun _ =>
        Keeps.bind VKeep.tr (vkeep_unwrapMoreParents hr _ _ _ _ _) fun _ => vkeep_ret _) h
    · exact VKeep.rfl' h

theorem vkeep_setProp (i : Nat) (k : String) (p : Property) : Keeps (VKeep b) (Heap.setProp i k p) := fun _ => vkeep_bases rfl

theorem vkeep_newProps (m : OMap Property) : Keeps (VKeep b) (Heap.newProps m) := fun _ => vkeep_bases rfl

theorem vkeep_unwrapFacetDefs (hr : ∀ a, Keeps (VKeep b) (rec a)) (a : Addr) (i : Nat) :
    ∀ n k, Keeps (VKeep b) (unwrapFacetDefs rec a i n k)
  | 0, _ => vkeep_diverge
  | n + 1, k => by
    intro h
    unfold unwrapFacetDefs
    split
    · exact VKeep.rfl' h
    · exact Keeps.tail VKeep.tr (hr _) (fun _ => Keeps.bind VKeep.tr (vkeep_newProps _) fun _ =>
        Keeps.bind VKeep.tr (vkeep_upd (by intro _ h; exact h)) fun _ => Keeps.bind VKeep.tr (vkeep_getBase _) fun _ =>
        Keeps.bind VKeep.tr (vkeep_when (fun i => vkeep_setProp i _ _) _) fun _ => vkeep_unwrapFacetDefs hr a i n _) h

theorem vkeep_unwrapFinish (n : Nat) (a : Addr) (s : Option Addr) : Keeps (VKeep b) (unwrapFinish n a s) := by
  refine Keeps.bind VKeep.tr ?_ fun _ => Keeps.bind VKeep.tr (fun _ => vkeep_bases rfl) fun _ => vkeep_ret _
  cases s with
  | none => exact vkeep_ret _
  | some x => exact vkeep_inherit b _ _ _

end

/-- A base that is marked stays marked through `UnwrapShape`, whatever the outcome. -/
theorem vkeep_unwrap (b : Addr) : ∀ n a, Keeps (VKeep b) (unwrap n a)
  | 0, _ => fun h => VKeep.rfl' h
  | n + 1, a => by
    have hr := vkeep_unwrap b n
    unfold unwrap
    refine Keeps.bind VKeep.tr (vkeep_getBase _) fun x => ?_
    split
    · exact vkeep_err _
    · split
      · exact vkeep_ret _
      · refine Keeps.bind VKeep.tr (vkeep_upd fun _ h => h) fun _ => ?_
        split
        · exact Keeps.bind VKeep.tr (hr _) fun _ => Keeps.bind VKeep.tr (fun _ => vkeep_bases rfl) fun _ => vkeep_aliasTo _ _
        · exact Keeps.bind VKeep.tr (vkeep_unwrapParents hr _ _) fun _ =>
            Keeps.bind VKeep.tr (vkeep_unwrapTarget hr _ _) fun _ => Keeps.bind VKeep.tr (vkeep_getBase _) fun _ =>
            Keeps.bind VKeep.tr (vkeep_when (fun _ => vkeep_unwrapFacetDefs hr _ _ _ _) _) fun _ => vkeep_unwrapFinish _ _ _

end GoRaml
