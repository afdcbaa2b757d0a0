import Verif.Spec.Graph
import Verif.Model.Monad

namespace GoRaml

open Spec

/-! ## Growth of the heap -/

theorem prefix_get {α : Type} {l l' : List α} (h : l <+: l') {i : Nat} {x : α} (hi : l[i]? = some x) :
    l'[i]? = some x := by
  obtain ⟨s, rfl⟩ := h
  have : i < l.length := by
    by_contra hn
    rw [List.getElem?_eq_none (Nat.not_lt.1 hn)] at hi; simp at hi
  rw [List.getElem?_append_left this]; exact hi

theorem prefix_get_lt {α : Type} {l l' : List α} (h : l <+: l') {i : Nat} (hi : i < l.length) :
    l'[i]? = l[i]? := by
  obtain ⟨s, rfl⟩ := h
  rw [List.getElem?_append_left hi]

theorem lt_of_get {α : Type} {l : List α} {i : Nat} {x : α} (hi : l[i]? = some x) : i < l.length := by
  by_contra hn
  rw [List.getElem?_eq_none (Nat.not_lt.1 hn)] at hi; simp at hi

theorem get_of_lt {α : Type} {l : List α} {i : Nat} (hi : i < l.length) : ∃ x, l[i]? = some x :=
  ⟨l[i], List.getElem?_eq_getElem hi⟩

theorem Spec.Unchanged.refl (h : St) : Unchanged h h := by
  constructor <;> first | rfl | exact List.prefix_refl _

theorem Spec.Unchanged.trans {a b c : St} (h1 : Unchanged a b) (h2 : Unchanged b c) : Unchanged a c := by
  constructor
  · exact h1.bases.trans h2.bases
  · exact h1.pmaps.trans h2.pmaps
  · exact h1.ppmaps.trans h2.ppmaps
  · exact h1.slices.trans h2.slices
  · exact h1.fmaps.trans h2.fmaps
  · exact h1.dts.trans h2.dts
  · rw [h2.libs, h1.libs]
  · rw [h2.shapes, h1.shapes]
  · rw [h2.unresolved, h1.unresolved]
  · rw [h2.fragments, h1.fragments]
  · rw [h2.fragTypes, h1.fragTypes]
  · rw [h2.fragAnnotationTypes, h1.fragAnnotationTypes]
  · rw [h2.domainExts, h1.domainExts]
  · rw [h2.idCounter, h1.idCounter]

theorem Spec.Unchanged.base {h h' : St} (u : Unchanged h h') {a : Addr} {b : Base}
    (hb : h.base a = some b) : h'.base a = some b := prefix_get u.bases hb

theorem Spec.Unchanged.base_lt {h h' : St} (u : Unchanged h h') {a : Addr} (ha : a < h.bases.length) :
    h'.base a = h.base a := prefix_get_lt u.bases ha

theorem Spec.Unchanged.props {h h' : St} (u : Unchanged h h') {i : Nat} (hi : i < h.pmaps.length) :
    h'.props (some i) = h.props (some i) := by
  simp only [St.props]; rw [prefix_get_lt u.pmaps hi]

theorem Spec.Unchanged.patProps {h h' : St} (u : Unchanged h h') {i : Nat} (hi : i < h.ppmaps.length) :
    h'.patProps (some i) = h.patProps (some i) := by
  simp only [St.patProps]; rw [prefix_get_lt u.ppmaps hi]

theorem Spec.Unchanged.slice {h h' : St} (u : Unchanged h h') {i : Nat} (hi : i < h.slices.length) :
    h'.slice (some i) = h.slice (some i) := by
  simp only [St.slice]; rw [prefix_get_lt u.slices hi]

theorem Spec.Unchanged.facetMap {h h' : St} (u : Unchanged h h') {i : Nat} (hi : i < h.fmaps.length) :
    h'.facetMap (some i) = h.facetMap (some i) := by
  simp only [St.facetMap]; rw [prefix_get_lt u.fmaps hi]

theorem Spec.BothOr.mono {α β : Type} {R S : α → β → Prop} (hRS : ∀ x y, R x y → S x y) {a : Option α}
    {b : Option β} (h : BothOr R a b) : BothOr S a b := by
  cases a <;> cases b <;> simp_all [BothOr]

theorem Spec.BothOr.mono_of {α β : Type} {R S : α → β → Prop} {a : Option α} {b : Option β}
    (hRS : ∀ x y, a = some x → b = some y → R x y → S x y) (h : BothOr R a b) : BothOr S a b := by
  cases a <;> cases b <;> simp_all [BothOr]

theorem Spec.SameProps.mono {R S : Addr → Addr → Prop} (hRS : ∀ x y, R x y → S x y)
    {ps ps' : OMap Property} (h : SameProps R ps ps') : SameProps S ps ps' := by
  refine List.Forall₂.imp ?_ h
  rintro a b ⟨h1, h2, h3, h4⟩
  exact ⟨h1, h2, h3, hRS _ _ h4⟩

theorem Spec.SamePatProps.mono {R S : Addr → Addr → Prop} (hRS : ∀ x y, R x y → S x y)
    {ps ps' : OMap PatternProperty} (h : SamePatProps R ps ps') : SamePatProps S ps ps' := by
  refine List.Forall₂.imp ?_ h
  rintro a b ⟨h1, h2, h4⟩
  exact ⟨h1, h2, hRS _ _ h4⟩

end GoRaml
