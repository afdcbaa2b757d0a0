import Verif.Lemmas.TagKept
import Verif.Model.ValidateAll

/-! Validation keeps the names and locations of types, whatever happens. -/

namespace GoRaml.Tag

open GoRaml GoRaml.Spec

/-- Names and locations of types are kept. -/
structure VLabels (s s' : VSt) : Prop where
  labels : Labels s.h s'.h

theorem VLabels.rfl' (s : VSt) : VLabels s s := ⟨.refl s.h⟩
theorem VLabels.tr (a b c : VSt) (h : VLabels a b) (k : VLabels b c) : VLabels a c := ⟨h.labels.trans k.labels⟩

theorem vlabels_on {α : Type} {m : M St α} (h : Keeps Labels m) : Keeps VLabels (onSt m) := fun s => ⟨h s.h⟩

theorem vlabels_tryEach {α : Type} {f : α → M VSt Unit} (h : ∀ x, Keeps VLabels (f x)) : ∀ l, Keeps VLabels (M.tryEach f l)
  | [] => fun s => .rfl' s
  | x :: l => Keeps.bind VLabels.tr (Keeps.attempt (h x)) fun r => Keeps.bind VLabels.tr (Keeps.attempt (vlabels_tryEach h l)) fun r' => by
      intro s
      cases r <;> cases r' <;> exact .rfl' s

theorem vlabels_tryBoth {m m' : M VSt Unit} (h : Keeps VLabels m) (h' : Keeps VLabels m') : Keeps VLabels (M.tryBoth m m') := by
  unfold M.tryBoth M.tryEach
  refine Keeps.bind VLabels.tr (Keeps.attempt h) fun r => Keeps.bind VLabels.tr (Keeps.attempt ?_) fun r' => by
    intro s
    cases r <;> cases r' <;> exact .rfl' s
  unfold M.tryEach
  exact Keeps.bind VLabels.tr (Keeps.attempt h') fun r => Keeps.bind VLabels.tr (Keeps.attempt fun s => .rfl' s) fun r' => by
    intro s
    cases r <;> cases r' <;> exact .rfl' s

theorem vlabels_unwrapCopy (n : Nat) (a : Addr) : Keeps VLabels (unwrapCopy n a) := by
  refine Keeps.bind VLabels.tr (vlabels_on (labels_getBase a)) fun b => ?_
  split
  · exact fun s => .rfl' s
  · exact Keeps.bind VLabels.tr (vlabels_on (labels_of (nkeep_clone n a))) fun c => Keeps.bind VLabels.tr (vlabels_on (labels_of (nkeep_unwrap n c))) fun us =>
      Keeps.bind VLabels.tr (vlabels_on (labels_mark n us)) fun _ => Keeps.bind VLabels.tr (vlabels_on (labels_getBase c)) fun _ => fun s => ⟨.refl s.h⟩

theorem vlabels_validateType (E : Ext) (ord : OMap Property → OMap Property) (n : Nat) (a : Addr) : Keeps VLabels (validateType E ord n a) :=
  Keeps.bind VLabels.tr (vlabels_unwrapCopy n a) fun u s =>
    Keeps.bind VLabels.tr (m := M.lift (check E s.h n u)) (fun s => .rfl' s) (fun _ s => .rfl' s) s

theorem vlabels_validateFragment (E : Ext) (ord : OMap Property → OMap Property) (n : Nat) (f : FragRef) : Keeps VLabels (validateFragment E ord n f) := fun s => by
  unfold validateFragment
  cases f with
  | library i =>
    dsimp only
    split
    · exact .rfl' s
    · exact vlabels_tryBoth (vlabels_tryEach (fun _ => vlabels_validateType E ord n _) _) (vlabels_tryEach (fun _ => vlabels_validateType E ord n _) _) s
  | dataType i =>
    dsimp only
    split
    · exact .rfl' s
    · exact vlabels_validateType E ord n _ s
  | namedExample i => exact .rfl' s

theorem vlabels_validateDomainExtension (E : Ext) (n : Nat) (d : DomainExt) : Keeps VLabels (validateDomainExtension E n d) := fun s => by
  unfold validateDomainExtension
  split
  · split
    · exact .rfl' s
    · split <;> exact .rfl' s
  · exact .rfl' s

theorem labels_validateShapes (E : Ext) (ord : OMap Property → OMap Property) (frags : List FragRef) (n : Nat) : Keeps Labels (validateShapes E ord frags n) := fun s =>
  (vlabels_tryBoth (vlabels_tryEach (vlabels_validateFragment E ord n) frags) (fun t => vlabels_tryEach (vlabels_validateDomainExtension E n) _ t) ⟨s, []⟩).labels

end GoRaml.Tag
