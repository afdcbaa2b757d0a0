import Verif.Lemmas.WholeEnds

/-!
# Marking keeps unions from containing themselves
-/

namespace GoRaml

open Spec

/-- After marking, each cycle passes an array item or an object property. -/
theorem guarded_marked {s s' : St} {rank : Addr → Nat} (below : ∀ a u e, s.shapeAt a = some (.union u e) → ∀ m ∈ s.slice u, rank m < rank a)
    (plain : ∀ a y, s.shapeAt a ≠ some (.recursive y)) (hc : Spec.Closed s) (mk : Marked (Whole.There s) s s') : Guarded s' := by
  have old : ∀ {a b}, s.base a = some b → ∀ {q}, s'.shapeAt a = some q → (∀ f, q ≠ .array f) → s.shapeAt a = some q := fun {a b} hb {q} hq hna => by
    obtain ⟨sh, v, k1, k2⟩ := mk.old a b hb
    unfold St.shapeAt at hq ⊢
    rw [k1] at hq
    rw [hb]
    simp only [Option.bind_some] at hq ⊢
    subst hq
    generalize hbs : b.shape = bs at k2
    cases k2 with
    | same => rfl
    | items => exact absurd rfl (hna _)
  refine ⟨fun x => match s.base x with
    | some _ => 2 * rank x
    | none => match s'.shapeAt x with
      | some (.recursive y) => 2 * rank y + 1
      | _ => 0, fun a => ⟨fun u e h m hm => ?_, fun y h => ?_⟩⟩
  · cases hb : s.base a with
    | none =>
      obtain ⟨b', k1, k2⟩ : ∃ b, s'.base a = some b ∧ b.shape = some (.union u e) := by
        unfold St.shapeAt at h
        exact Option.bind_eq_some_iff.1 h
      obtain ⟨_, _, x, _, k3⟩ := mk.fresh a b' hb k1
      rw [k2] at k3
      cases k3
    | some b =>
      have ho := old hb h (fun f hf => by cases hf)
      obtain ⟨x, hx, hr⟩ : ∃ x ∈ s.slice u, Repl (Whole.There s) s s' x m := by
        have hfa := mk.slices u
        clear ho h
        generalize s.slice u = l1 at hfa ⊢
        generalize s'.slice u = l2 at hfa hm
        induction hfa with
        | nil => cases hm
        | cons h3 _ ih =>
          rcases List.mem_cons.1 hm with rfl | hm
          · exact ⟨_, by simp, h3⟩
          · obtain ⟨x, h4, h5⟩ := ih hm
            exact ⟨x, by simp [h4], h5⟩
      have hlt := below _ _ _ ho x hx
      have hxb : ∃ bx, s.base x = some bx := by
        obtain ⟨sh, k1, k2⟩ := hc a b hb
        have : sh = .union u e := by
          unfold St.shapeAt at ho
          rw [hb] at ho
          simp only [Option.bind_some, k1, Option.some.injEq] at ho
          exact ho
        subst this
        exact ⟨_, List.getElem?_eq_getElem (k2 x hx)⟩
      obtain ⟨bx, hxb⟩ := hxb
      rcases hr with rfl | ⟨_, h3, h4⟩
      · simp only [hxb, hb]
        show 2 * rank m < 2 * rank a
        omega
      · simp only [h3, h4, hb]
        show 2 * rank x + 1 < 2 * rank a
        omega
  · cases hb : s.base a with
    | none =>
      obtain ⟨b', k1, k2⟩ : ∃ b, s'.base a = some b ∧ b.shape = some (.recursive y) := by
        unfold St.shapeAt at h
        exact Option.bind_eq_some_iff.1 h
      obtain ⟨_, _, x, hx, k3⟩ := mk.fresh a b' hb k1
      rw [k2] at k3
      cases k3
      unfold Whole.There at hx
      obtain ⟨by', hy⟩ := Option.isSome_iff_exists.1 hx
      simp only [hy, h, hb]
      show 2 * rank y < 2 * rank y + 1
      omega
    | some b =>
      exact absurd (old hb h fun f hf => by cases hf) (plain a y)

end GoRaml
