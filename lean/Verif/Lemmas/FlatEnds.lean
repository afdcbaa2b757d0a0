import Verif.Lemmas.FlatAll
import Verif.Lemmas.MarkGuarded
import Verif.Lemmas.VerdictAll
import Verif.Spec.FlatEnds
import Mathlib.Data.Finset.Card

/-!
# After unwrapping without inheritance, validation ends (C78)
-/

namespace GoRaml.Flat

open GoRaml Spec

/-! ## A rank for unions -/

/-- `x` is reached from `a` over at least one member of a union. -/
def Beneath (s : St) (a x : Addr) : Prop :=
  ∃ b m, Relation.ReflTransGen (fun x y => UnionMember s x y ∨ AliasOf s x y) a b ∧ UnionMember s b m ∧ Relation.ReflTransGen (fun x y => UnionMember s x y ∨ AliasOf s x y) m x

theorem exists_rank {s : St} (hu : NoUnionInItself s) (hin : ∀ a m, UnionMember s a m → m < s.bases.length) :
    ∃ rank : Addr → Nat, (∀ a m, UnionMember s a m → rank m < rank a) ∧ ∀ a t, AliasOf s a t → rank t ≤ rank a := by
  classical
  refine ⟨fun a => ((Finset.range s.bases.length).filter fun x => Beneath s a x).card, fun a m h => ?_, fun a t h => ?_⟩
  · refine Finset.card_lt_card ((Finset.ssubset_iff_of_subset fun x hx => ?_).2 ⟨m, ?_, fun hx => ?_⟩)
    · obtain ⟨h1, b, c, h2, h3, h4⟩ := Finset.mem_filter.1 hx
      exact Finset.mem_filter.2 ⟨h1, b, c, .head (.inl h) h2, h3, h4⟩
    · exact Finset.mem_filter.2 ⟨Finset.mem_range.2 (hin a m h), a, m, .refl, h, .refl⟩
    · obtain ⟨_, b, c, h2, h3, h4⟩ := Finset.mem_filter.1 hx
      exact hu b c h3 (h4.trans h2)
  · refine Finset.card_le_card fun x hx => ?_
    obtain ⟨h1, b, c, h2, h3, h4⟩ := Finset.mem_filter.1 hx
    exact Finset.mem_filter.2 ⟨h1, b, c, .head (.inr h) h2, h3, h4⟩

variable {h0 h : St}

theorem rank_along {rank : Addr → Nat} (ha : ∀ a t, AliasOf h0 a t → rank t ≤ rank a) {x z : Addr} (h : Along h0 x z) : rank z ≤ rank x := by
  induction h with
  | refl => exact Nat.le_refl _
  | tail _ h ih => exact Nat.le_trans (ha _ _ h) ih

/-- The members of unions are below them. -/
theorem U.below (st : Start h0) (u : U h0 h) {rank : Addr → Nat} (hm : ∀ a m, UnionMember h0 a m → rank m < rank a) (ha : ∀ a t, AliasOf h0 a t → rank t ≤ rank a)
    (a : Addr) (l : Option Nat) (e : Option (List GoVal)) (hs : h.shapeAt a = some (.union l e)) : ∀ m ∈ h.slice l, rank m < rank a := by
  intro m hml
  rw [u.slice] at hml
  obtain ⟨b, hb, hbs⟩ := base_of_shape hs
  by_cases hf : b.unwrapped = true
  · obtain ⟨_, k⟩ := u.parts st hb ⟨b, hb, hf⟩ hbs
    obtain ⟨z, bz, h1, _, _, _, h5, h6⟩ := k m (.member hml)
    obtain ⟨e', h7⟩ := h6 l e rfl
    exact Nat.lt_of_lt_of_le (hm z m ⟨l, e', by simp [St.shapeAt, h1, h7], hml⟩) (rank_along ha h5)
  · have := u.raw a b hb (by simpa using hf)
    exact hm a m ⟨l, e, by simp [St.shapeAt, this, hbs], hml⟩

/-- Unwrapping makes no recursive references. -/
theorem U.unmarked (u : U h0 h) (hp : ∀ a y, h0.shapeAt a ≠ some (.recursive y)) (hsh : ∀ a b, h0.base a = some b → ∃ q, b.shape = some q) (a y : Addr) :
    h.shapeAt a ≠ some (.recursive y) := fun hs => by
  obtain ⟨b, hb, hbs⟩ := base_of_shape hs
  cases hx : h0.base a with
  | none => rw [u.gone a hx] at hb; cases hb
  | some b0 =>
    obtain ⟨q0, hq0⟩ := hsh a b0 hx
    have hk := u.kind hx hb hq0 hbs
    cases q0 <;> simp [Kind] at hk
    exact hp a _ (by simp only [St.shapeAt, hx, Option.bind_some]; exact hq0)

/-- No type has parents. -/
theorem U.roots (st : Start h0) (u : U h0 h) {a : Addr} {b : Base} (hb : h.base a = some b) : h.slice b.inherits = [] := by
  rw [u.slice]
  cases hx : h0.base a with
  | none => rw [u.gone a hx] at hb; cases hb
  | some b0 =>
    by_cases ha : b0.alias = none
    · obtain ⟨v, h1⟩ := u.plain a b0 hx ha
      rw [hb] at h1; cases h1
      exact (st.plain.parents a b0 hx).2
    · obtain ⟨c, _, _, h1, _, h3, _⟩ := u.aliases a b0 hx ha
      rw [hb] at h1; cases h1
      exact h3.2

/-- The same after marking. -/
theorem rooted_marked {C : Addr → Prop} {h h' : St} (hr : ∀ a b, h.base a = some b → h.slice b.inherits = []) (mk : Marked C h h') : Rooted h' := fun a b hb => by
  refine ⟨[], .root _ ?_⟩
  cases hx : h.base a with
  | none => rw [mk.roots a b hx hb]; rfl
  | some c =>
    obtain ⟨s, v, h1, _⟩ := mk.old a c hx
    rw [hb] at h1; cases h1
    have := mk.slices c.inherits
    rw [hr a c hx] at this
    exact List.forall₂_nil_left_iff.1 this

theorem guarded_flat {K : Whole.Par} [K.Rec] {h1 h2 : St} (st : Start h0) (hu : NoUnionInItself h0) (hp : ∀ a y, h0.shapeAt a ≠ some (.recursive y)) (u : U h0 h1) (hw : Whole.Wf K h1)
    (mk : Marked (Whole.There h1) h1 h2) : Guarded h2 := by
  obtain ⟨rank, r1, r2⟩ := exists_rank hu fun a m ⟨u, e, h1, h2⟩ => by
    obtain ⟨b, hb⟩ := Option.isSome_iff_exists.1 (st.edge a m ⟨_, h1, .member h2⟩)
    exact lt_of_get hb
  exact guarded_marked (u.below st r1 r2) (u.unmarked hp fun a b hb => (st.shape a b hb).imp fun _ h => h.1) (Emb.Wf.closed (Emb.Wf.cleared hw)) mk

end GoRaml.Flat
