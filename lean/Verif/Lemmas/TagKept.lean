import Verif.Lemmas.TagAll

/-!
# Names and locations, whatever happens
-/

namespace GoRaml.Tag

open GoRaml GoRaml.Spec

theorem Labels.tr (a b c : St) (h : Labels a b) (k : Labels b c) : Labels a c := h.trans k

theorem labels_of {α : Type} {m : M St α} (h : Keeps NKeep m) : Keeps Labels m := fun s => (h s).base

theorem labels_same {α : Type} {m : M St α} (h : ∀ s, (m s).2.bases = s.bases) : Keeps Labels m := fun s => .same (h s)

theorem labels_whenSome {α : Type} {p : Option α} {f : α → M St Unit} (h : ∀ x, Keeps Labels (f x)) : Keeps Labels (whenSome p f) := by
  cases p with
  | none => exact labels_same fun _ => rfl
  | some x => exact h x

theorem labels_tryEach {α : Type} {f : α → M St Unit} (h : ∀ x, Keeps Labels (f x)) : ∀ l, Keeps Labels (M.tryEach f l)
  | [] => fun s => .refl s
  | x :: l => Keeps.bind Labels.tr (Keeps.attempt (h x)) fun r => Keeps.bind Labels.tr (Keeps.attempt (labels_tryEach h l)) fun r' => by
      intro s
      cases r <;> cases r' <;> exact .refl s

theorem labels_getBase (a : Addr) : Keeps Labels (Heap.getBase a) := labels_of (nkeep_getBase a)

theorem labels_upd {a : Addr} {f : Base → Base} (hf : ∀ x, (f x).name = x.name ∧ (f x).location = x.location) : Keeps Labels (Heap.updBase a f) := labels_of (nkeep_upd hf)

theorem labels_makeRecursive (a : Addr) (b : Base) : Keeps Labels (makeRecursive a b) := fun s => by
  intro x y hy
  have hlt : x < s.bases.length := (List.getElem?_eq_some_iff.1 hy).1
  have : (makeRecursive a b s).2.base x = s.base x := by
    simp only [makeRecursive, makeBaseShape, M.bind, M.ret, Heap.newID, Heap.newFacets, Heap.newProps, Heap.newBase, Heap.putShape, Heap.updBase, M.modify, St.base]
    rw [List.getElem?_modify]
    have : s.bases.length ≠ x := Nat.ne_of_gt hlt
    simp [this, List.getElem?_append_left hlt]
  exact ⟨y, this.trans hy, rfl, rfl⟩

section
variable {rec : Addr → M St (Option Addr)} (hr : ∀ a, Keeps Labels (rec a))
include hr

theorem labels_markProps (i : Nat) : Keeps Labels (markProps rec i) := fun s =>
  Keeps.forEach Labels.refl Labels.tr (fun k s => by
    unfold markProp
    split
    · exact .refl s
    · exact Keeps.bind Labels.tr (hr _) (fun _ => labels_whenSome fun _ => labels_same fun _ => rfl) s) _ s

theorem labels_markPatProps (i : Nat) : Keeps Labels (markPatProps rec i) := fun s =>
  Keeps.forEach Labels.refl Labels.tr (fun k s => by
    unfold markPatProp
    split
    · exact .refl s
    · exact Keeps.bind Labels.tr (hr _) (fun _ => labels_whenSome fun _ => labels_same fun _ => rfl) s) _ s

theorem labels_markMembers (i : Nat) : Keeps Labels (markMembers rec i) := fun s =>
  Keeps.forEach Labels.refl Labels.tr (fun k s => by
    unfold markMember
    split
    · exact .refl s
    · exact Keeps.bind Labels.tr (hr _) (fun _ => labels_whenSome fun _ => labels_same fun _ => rfl) s) _ s

theorem labels_markShape (a : Addr) (sh : Option Shape) : Keeps Labels (markShape rec a sh) := by
  unfold markShape
  split
  · exact labels_whenSome fun i => Keeps.bind Labels.tr (hr i) fun _ => labels_whenSome fun _ => labels_of (nkeep_setArray _ _)
  · exact Keeps.bind Labels.tr (labels_whenSome fun i => labels_markProps hr i) fun _ => labels_whenSome fun i => labels_markPatProps hr i
  · exact labels_whenSome fun i => labels_markMembers hr i
  · exact fun s => .refl s

end

theorem labels_mark : ∀ n a, Keeps Labels (mark n a)
  | 0, _ => fun s => .refl s
  | n + 1, a => by
    unfold mark
    refine Keeps.bind Labels.tr (labels_getBase a) fun b => ?_
    split
    · exact fun s => .refl s
    · split
      · exact Keeps.bind Labels.tr (labels_makeRecursive a b) fun r => Keeps.bind Labels.tr (labels_upd fun _ => ⟨rfl, rfl⟩) fun _ s => .refl s
      · exact Keeps.bind Labels.tr (labels_upd fun _ => ⟨rfl, rfl⟩) fun _ => Keeps.bind Labels.tr (labels_markShape (labels_mark n) a _) fun _ =>
          Keeps.bind Labels.tr (labels_upd fun _ => ⟨rfl, rfl⟩) fun _ => Keeps.bind Labels.tr (labels_whenSome fun i => labels_markProps (labels_mark n) i) fun _ s => .refl s

theorem labels_unwrapType (n : Nat) (c : Sect) (i : Nat) (loc : String) (ka : String × Addr) : Keeps Labels (unwrapType n c i loc ka) :=
  Keeps.bind Labels.tr (labels_of (nkeep_unwrap n _)) fun us => Keeps.bind Labels.tr (labels_same fun _ => rfl) fun _ => Keeps.bind Labels.tr (labels_getBase us) fun u => by
    cases c <;> exact labels_same fun _ => rfl

theorem labels_unwrapDataType (n i : Nat) (d : DT) : Keeps Labels (unwrapDataType n i d) := by
  unfold unwrapDataType
  split
  · exact fun s => .refl s
  · exact Keeps.bind Labels.tr (labels_of (nkeep_unwrap n _)) fun us => Keeps.bind Labels.tr (labels_same fun _ => rfl) fun _ => Keeps.bind Labels.tr (labels_getBase us) fun u =>
      labels_same fun _ => rfl

theorem labels_unwrapFragment (n : Nat) (f : FragRef) : Keeps Labels (unwrapFragment n f) := fun s => by
  unfold unwrapFragment
  cases f with
  | library i =>
    dsimp only
    split
    · exact .refl s
    · rename_i l _
      exact labels_tryEach (f := fun c => unwrapTypes n c i l) (fun c => labels_tryEach (fun ka => labels_unwrapType n c i l.location ka) _) [.annotationTypes, .types] s
  | dataType i =>
    dsimp only
    split
    · exact .refl s
    · exact labels_unwrapDataType n i _ s
  | namedExample i => exact .refl s

theorem labels_markFragment (n : Nat) (f : FragRef) : Keeps Labels (markFragment n f) := fun s => by
  unfold markFragment
  cases f with
  | library i =>
    dsimp only
    split
    · exact .refl s
    · exact Keeps.forEach Labels.refl Labels.tr (fun ka => Keeps.bind Labels.tr (labels_mark n _) fun _ s => .refl s) _ s
  | dataType i =>
    dsimp only
    split
    · exact .refl s
    · exact Keeps.bind Labels.tr (labels_mark n _) (fun _ s => .refl s) s
  | namedExample i => exact .refl s

theorem labels_unwrapDomainExtension (i : Nat) : Keeps Labels (unwrapDomainExtension i) := fun s => by
  unfold unwrapDomainExtension
  split
  · exact .refl s
  · exact Keeps.bind Labels.tr (labels_of (nkeep_lift _)) (fun _ => labels_same fun _ => rfl) s

theorem labels_unwrapShapes (n : Nat) (fs fs' : List FragRef) : Keeps Labels (unwrapShapes n fs fs') :=
  Keeps.bind Labels.tr (labels_same fun _ => rfl) fun _ => Keeps.bind Labels.tr (labels_tryEach (labels_unwrapFragment n) fs) fun _ =>
    Keeps.bind Labels.tr (Keeps.forEach Labels.refl Labels.tr (labels_markFragment n) fs') fun _ s => labels_tryEach labels_unwrapDomainExtension _ s

end GoRaml.Tag
