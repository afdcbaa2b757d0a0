import Verif.Lemmas.TagFiles
import Verif.Lemmas.TagStay

/-! Validation leaves the fragments alone as well; parsing with options keeps those that are registered. -/

namespace GoRaml.Stay

open GoRaml GoRaml.Spec

/-- The same fragments are registered. -/
structure VKeep (s s' : VSt) : Prop where
  frags : s'.h.fragments = s.h.fragments

theorem VKeep.rfl' (s : VSt) : VKeep s s := ⟨rfl⟩
theorem VKeep.tr (a b c : VSt) (h : VKeep a b) (k : VKeep b c) : VKeep a c := ⟨k.frags.trans h.frags⟩

theorem vkeep_on {α : Type} {m : M St α} (h : Keeps NKeep m) : Keeps VKeep (onSt m) := fun s => ⟨(h s.h).frags⟩

theorem vkeep_tryEach {α : Type} {f : α → M VSt Unit} (h : ∀ x, Keeps VKeep (f x)) : ∀ l, Keeps VKeep (M.tryEach f l)
  | [] => fun s => .rfl' s
  | x :: l => Keeps.bind VKeep.tr (Keeps.attempt (h x)) fun r => Keeps.bind VKeep.tr (Keeps.attempt (vkeep_tryEach h l)) fun r' => by
      intro s
      cases r <;> cases r' <;> exact .rfl' s

theorem vkeep_tryBoth {m m' : M VSt Unit} (h : Keeps VKeep m) (h' : Keeps VKeep m') : Keeps VKeep (M.tryBoth m m') := by
  unfold M.tryBoth M.tryEach
  refine Keeps.bind VKeep.tr (Keeps.attempt h) fun r => Keeps.bind VKeep.tr (Keeps.attempt ?_) fun r' => by
    intro s
    cases r <;> cases r' <;> exact .rfl' s
  unfold M.tryEach
  exact Keeps.bind VKeep.tr (Keeps.attempt h') fun r => Keeps.bind VKeep.tr (Keeps.attempt fun s => .rfl' s) fun r' => by
    intro s
    cases r <;> cases r' <;> exact .rfl' s

theorem vkeep_unwrapCopy (n : Nat) (a : Addr) : Keeps VKeep (unwrapCopy n a) := by
  refine Keeps.bind VKeep.tr (vkeep_on (nkeep_getBase a)) fun b => ?_
  split
  · exact fun s => .rfl' s
  · exact Keeps.bind VKeep.tr (vkeep_on (nkeep_clone n a)) fun c => Keeps.bind VKeep.tr (vkeep_on (nkeep_unwrap n c)) fun us =>
      Keeps.bind VKeep.tr (vkeep_on (nkeep_mark n us)) fun _ => Keeps.bind VKeep.tr (vkeep_on (nkeep_getBase c)) fun _ => fun _ => ⟨rfl⟩

theorem vkeep_validateType (E : Ext) (ord : OMap Property → OMap Property) (n : Nat) (a : Addr) : Keeps VKeep (validateType E ord n a) :=
  Keeps.bind VKeep.tr (vkeep_unwrapCopy n a) fun u s =>
    Keeps.bind VKeep.tr (m := M.lift (check E s.h n u)) (fun s => .rfl' s) (fun _ s => .rfl' s) s

theorem vkeep_validateFragment (E : Ext) (ord : OMap Property → OMap Property) (n : Nat) (f : FragRef) : Keeps VKeep (validateFragment E ord n f) := fun s => by
  unfold validateFragment
  cases f with
  | library i =>
    dsimp only
    split
    · exact .rfl' s
    · exact vkeep_tryBoth (vkeep_tryEach (fun _ => vkeep_validateType E ord n _) _) (vkeep_tryEach (fun _ => vkeep_validateType E ord n _) _) s
  | dataType i =>
    dsimp only
    split
    · exact .rfl' s
    · exact vkeep_validateType E ord n _ s
  | namedExample i => exact .rfl' s

theorem vkeep_validateDomainExtension (E : Ext) (n : Nat) (d : DomainExt) : Keeps VKeep (validateDomainExtension E n d) := fun s => by
  unfold validateDomainExtension
  split
  · split
    · exact .rfl' s
    · split <;> exact .rfl' s
  · exact .rfl' s

theorem nkeep_validateShapes (E : Ext) (ord : OMap Property → OMap Property) (frags : List FragRef) (n : Nat) : Keeps NKeep (validateShapes E ord frags n) := fun s =>
  ⟨(vkeep_tryBoth (vkeep_tryEach (vkeep_validateFragment E ord n) frags) (fun t => vkeep_tryEach (vkeep_validateDomainExtension E n) _ t) ⟨s, []⟩).frags⟩

theorem does_of {α : Type} {m : M St α} (h : Keeps NKeep m) : Files.Does m := .still fun s => (h s).frags

theorem finishParse_does (E : Env) (ord : Orders) (n : Nat) (o : ParseOpts) : Files.Does (finishParse E ord n o) := by
  unfold finishParse
  exact .bind (.ite (fun s => does_of (nkeep_unwrapShapes n (ord.unwrap s.fragments) (ord.mark s.fragments)) s) .ret) fun _ =>
    .ite (fun s => does_of (nkeep_validateShapes E.toExt ord.facets (ord.validate s.fragments) n) s) .ret

theorem parseWith_does (E : Env) (ord : Orders) (n m : Nat) (path : String) (o : ParseOpts) : Files.Does (parseWith E ord n m path o) :=
  .bind Files.parseFromPath_does fun _ => .bind (finishParse_does E ord n o) fun _ => .ret

theorem parseStringWith_does (E : Env) (ord : Orders) (n m : Nat) (content fileName baseDir : String) (o : ParseOpts) :
    Files.Does (parseStringWith E ord n m content fileName baseDir o) := by
  unfold parseStringWith
  split
  · exact .bind Files.parseFragment_does fun _ => .bind (finishParse_does E ord n o) fun _ => .ret
  · exact .err

end GoRaml.Stay
