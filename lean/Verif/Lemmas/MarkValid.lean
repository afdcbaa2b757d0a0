import Verif.Lemmas.MarkTotal
import Verif.Lemmas.Agree
import Verif.Lemmas.Narrow

/-!
# Recursion marking keeps the values of every type
-/

namespace GoRaml

open Spec

abbrev EntryRepl (C : Addr → Prop) (h h' : St) (e e' : String × Property) : Prop :=
  e'.1 = e.1 ∧ ∃ y, e'.2 = { e.2 with base := y } ∧ Repl C h h' e.2.base y

theorem forall₂_mem_left {α β : Type} {R : α → β → Prop} : ∀ {l : List α} {l' : List β}, List.Forall₂ R l l' →
    ∀ a ∈ l, ∃ b ∈ l', R a b
  | _, _, .nil, b, hb => by cases hb
  | _, _, .cons h1 h2, b, hb => by
    rcases List.mem_cons.1 hb with rfl | hb
    · exact ⟨_, List.mem_cons_self, h1⟩
    · obtain ⟨a, ha, hr⟩ := forall₂_mem_left h2 b hb
      exact ⟨a, List.mem_cons_of_mem _ ha, hr⟩

theorem declares_cons {k k' : String} {p q : Property} {l : OMap Property} :
    Declares ((k', q) :: l) k p ↔ (k' = k ∧ q = p) ∨ (k' ≠ k ∧ Declares l k p) := by
  constructor
  · rintro ⟨pre, post, h1, h2⟩
    cases pre with
    | nil =>
      simp only [List.nil_append, List.cons.injEq, Prod.mk.injEq] at h1
      exact Or.inl h1.1
    | cons e pre =>
      simp only [List.cons_append, List.cons.injEq] at h1
      refine Or.inr ⟨?_, pre, post, h1.2, fun q hq => h2 q (List.mem_cons_of_mem _ hq)⟩
      have := h2 e List.mem_cons_self
      rw [← h1.1] at this
      exact this
  · rintro (⟨rfl, rfl⟩ | ⟨hne, pre, post, h1, h2⟩)
    · exact ⟨[], l, rfl, by simp⟩
    · refine ⟨(k', q) :: pre, post, by rw [h1]; rfl, fun e he => ?_⟩
      rcases List.mem_cons.1 he with rfl | he
      · exact hne
      · exact h2 e he

theorem declares_repl {C : Addr → Prop} {h h' : St} : ∀ {l l' : OMap Property}, List.Forall₂ (EntryRepl C h h') l l' →
    ∀ (k : String) (p' : Property), Declares l' k p' → ∃ p, Declares l k p ∧ Repl C h h' p.base p'.base
  | _, _, .nil, k, p', hd => by obtain ⟨pre, post, h1, _⟩ := hd; simp at h1
  | (ka, a) :: l, (kb, b) :: l', .cons h1 h2, k, p', hd => by
    obtain ⟨e1, y, e2, e3⟩ := h1
    simp only at e1 e2 e3
    rcases declares_cons.1 hd with ⟨h3, h4⟩ | ⟨h3, h4⟩
    · refine ⟨a, declares_cons.2 (Or.inl ⟨by rw [← e1]; exact h3, rfl⟩), ?_⟩
      rw [← h4, e2]; exact e3
    · obtain ⟨p, h5, h6⟩ := declares_repl h2 k p' h4
      exact ⟨p, declares_cons.2 (Or.inr ⟨by rw [← e1]; exact h3, h5⟩), h6⟩

theorem declares_repl' {C : Addr → Prop} {h h' : St} : ∀ {l l' : OMap Property}, List.Forall₂ (EntryRepl C h h') l l' →
    ∀ (k : String) (p : Property), Declares l k p → ∃ p', Declares l' k p' ∧ Repl C h h' p.base p'.base
  | _, _, .nil, k, p', hd => by obtain ⟨pre, post, h1, _⟩ := hd; simp at h1
  | (ka, a) :: l, (kb, b) :: l', .cons h1 h2, k, p, hd => by
    obtain ⟨e1, y, e2, e3⟩ := h1
    simp only at e1 e2 e3
    rcases declares_cons.1 hd with ⟨h3, h4⟩ | ⟨h3, h4⟩
    · refine ⟨b, declares_cons.2 (Or.inl ⟨by rw [e1]; exact h3, rfl⟩), ?_⟩
      rw [← h4, e2]; exact e3
    · obtain ⟨p', h5, h6⟩ := declares_repl' h2 k p h4
      exact ⟨p', declares_cons.2 (Or.inr ⟨by rw [e1]; exact h3, h5⟩), h6⟩

section
variable {E : Ext} {C : Addr → Prop} {h h' : St}

theorem step_marked (m : Marked C h h') {x : Addr} {P Q : Addr → GoVal → Prop}
    (hPQ : ∀ x0 y0 v, Refers h x x0 → Repl C h h' x0 y0 → P x0 v → Q y0 v)
    (hrec : ∀ y v, h.shapeAt x = some (.recursive y) → P y v → Q y v) {v : GoVal} (hs : Step E h P x v) :
    Step E h' Q x v := by
  unfold Step at hs
  cases hsh : h.shapeAt x with
  | none => simp [hsh] at hs
  | some s =>
    rw [hsh] at hs
    cases s
    case array f =>
      simp only at hs
      obtain ⟨l, h1, h2, h3, h4⟩ := hs
      unfold Step
      rcases m.array hsh with k | ⟨i, j, k1, k2, k3⟩
      · rw [k]
        exact ⟨l, h1, h2, fun b hb z hz => hPQ _ _ _ ⟨_, hsh, .items hb⟩ (.refl _) (h3 b hb z hz), h4⟩
      · rw [k3]
        refine ⟨l, h1, h2, fun b hb z hz => ?_, h4⟩
        simp only [Option.some.injEq] at hb
        subst hb
        exact hPQ _ _ _ ⟨_, hsh, .items k1⟩ k2 (h3 i k1 z hz)
    case object f =>
      simp only at hs
      obtain ⟨mm, h1, h2, h3, h4, h5⟩ := hs
      unfold Step
      rw [m.shape hsh (by simp)]
      refine ⟨mm, h1, h2, fun p hp hreq => ?_, fun k z p hk hd => ?_, fun k z hk hd => ?_⟩
      · obtain ⟨e, he, k1, y, k2, _⟩ := forall₂_mem_right (m.props _) _ hp
        rw [k1]
        exact h3 e he (by rw [k2] at hreq; exact hreq)
      · obtain ⟨q, k1, k2⟩ := declares_repl (m.props _) k p hd
        exact hPQ _ _ _ ⟨_, hsh, .property (p := (k, q)) k1.mem⟩ k2 (h4 k z q hk k1)
      · obtain ⟨k1, k2⟩ := h5 k z hk fun q hq => by
          obtain ⟨e, he, k1, _⟩ := forall₂_mem_left (m.props _) _ hq
          rw [← k1]; exact hd e he
        refine ⟨k1, ?_⟩
        rcases k2 with k2 | ⟨p, hp, k3, k4⟩
        · refine Or.inl fun p hp => ?_
          obtain ⟨e, he, _, y, k4, _⟩ := forall₂_mem_right (m.patProps _) _ hp
          rw [k4]; exact k2 e he
        · obtain ⟨e, he, _, y, k5, k6⟩ := forall₂_mem_left (m.patProps _) _ hp
          refine Or.inr ⟨e, he, by rw [k5]; exact k3, ?_⟩
          rw [k5]
          exact hPQ _ _ _ ⟨_, hsh, .pattern hp⟩ k6 k4
    case union l e =>
      simp only at hs
      obtain ⟨mb, h1, h2⟩ := hs
      unfold Step
      rw [m.shape hsh (by simp)]
      obtain ⟨y, hy, k⟩ := forall₂_mem_left (m.slices _) _ h1
      exact ⟨y, hy, hPQ _ _ _ ⟨_, hsh, .member h1⟩ k h2⟩
    case recursive y =>
      unfold Step
      rw [m.shape hsh (by simp)]
      exact hrec y v hsh hs
    all_goals
      unfold Step
      rw [m.shape hsh (by simp)]
      exact hs

theorem step_marked_back (m : Marked C h h') {x : Addr} (hx : h.base x ≠ none) {P Q : Addr → GoVal → Prop}
    (hPQ : ∀ x0 y0 v, Refers h x x0 → Repl C h h' x0 y0 → Q y0 v → P x0 v)
    (hrec : ∀ y v, h.shapeAt x = some (.recursive y) → Q y v → P y v) {v : GoVal} (hs : Step E h' Q x v) :
    Step E h P x v := by
  cases hb : h.base x with
  | none => exact absurd hb hx
  | some b =>
    cases hbs : b.shape with
    | none =>
      obtain ⟨s', v', k1, k2⟩ := m.old x b hb
      rw [hbs] at k2
      cases k2
      simp [Step, St.shapeAt, k1] at hs
    | some s =>
      have hsh : h.shapeAt x = some s := by simp [St.shapeAt, hb, hbs]
      cases s
      case array f =>
        unfold Step at hs ⊢
        rw [hsh]
        rcases m.array hsh with k | ⟨i, j, k1, k2, k3⟩
        · rw [k] at hs
          obtain ⟨l, h1, h2, h3, h4⟩ := hs
          exact ⟨l, h1, h2, fun b hb z hz => hPQ _ _ _ ⟨_, hsh, .items hb⟩ (.refl _) (h3 b hb z hz), h4⟩
        · rw [k3] at hs
          obtain ⟨l, h1, h2, h3, h4⟩ := hs
          refine ⟨l, h1, h2, fun b hb z hz => ?_, h4⟩
          rw [k1] at hb
          cases hb
          exact hPQ _ _ _ ⟨_, hsh, .items k1⟩ k2 (h3 j rfl z hz)
      case object f =>
        unfold Step at hs ⊢
        rw [m.shape hsh (by simp)] at hs
        rw [hsh]
        obtain ⟨mm, h1, h2, h3, h4, h5⟩ := hs
        refine ⟨mm, h1, h2, fun p hp hreq => ?_, fun k z p hk hd => ?_, fun k z hk hd => ?_⟩
        · obtain ⟨e, he, k1, y, k2, _⟩ := forall₂_mem_left (m.props _) _ hp
          rw [← k1]
          exact h3 e he (by rw [k2]; exact hreq)
        · obtain ⟨q, k1, k2⟩ := declares_repl' (m.props _) k p hd
          exact hPQ _ _ _ ⟨_, hsh, .property (p := (k, p)) hd.mem⟩ k2 (h4 k z q hk k1)
        · obtain ⟨k1, k2⟩ := h5 k z hk fun q hq => by
            obtain ⟨e, he, k1, _⟩ := forall₂_mem_right (m.props _) _ hq
            rw [k1]; exact hd e he
          refine ⟨k1, ?_⟩
          rcases k2 with k2 | ⟨p, hp, k3, k4⟩
          · refine Or.inl fun p hp => ?_
            obtain ⟨e, he, _, y, k4, _⟩ := forall₂_mem_left (m.patProps _) _ hp
            have := k2 e he
            rw [k4] at this; exact this
          · obtain ⟨e, he, _, y, k5, k6⟩ := forall₂_mem_right (m.patProps _) _ hp
            rw [k5] at k3 k4
            exact Or.inr ⟨e, he, k3, hPQ _ _ _ ⟨_, hsh, .pattern he⟩ k6 k4⟩
      case union l e =>
        unfold Step at hs ⊢
        rw [m.shape hsh (by simp)] at hs
        rw [hsh]
        obtain ⟨mb, h1, h2⟩ := hs
        obtain ⟨y, hy, k⟩ := forall₂_mem_right (m.slices _) _ h1
        exact ⟨y, hy, hPQ _ _ _ ⟨_, hsh, .member hy⟩ k h2⟩
      case recursive y =>
        unfold Step at hs ⊢
        rw [m.shape hsh (by simp)] at hs
        rw [hsh]
        exact hrec y v hsh hs
      all_goals
        unfold Step at hs ⊢
        rw [m.shape hsh (by simp)] at hs
        rw [hsh]
        exact hs

theorem valid_marked (m : Marked C h h') {x : Addr} {v : GoVal} (hv : Valid E h x v) : Valid E h' x v := by
  refine (hv (fun x v => ∀ y, Repl C h h' x y → Valid E h' y v) fun x v hs y hy => ?_) x (.refl _)
  have hx : Valid E h' x v := (valid_iff_step E h' x v).2
    (step_marked m (fun x0 y0 v _ hr hp => hp y0 hr) (fun y v _ hp => hp y (.refl _)) hs)
  rcases hy with rfl | ⟨_, _, h3⟩
  · exact hx
  · rw [valid_iff_step]; unfold Step; rw [h3]; exact hx

theorem closed_refers (hc : Closed h) {x y : Addr} (hr : Refers h x y) : h.base y ≠ none := by
  obtain ⟨s, hs, he⟩ := hr
  obtain ⟨b, hb, hbs⟩ := base_of_shape hs
  obtain ⟨s', hs', hcl⟩ := hc x b hb
  rw [hbs] at hs'
  cases hs'
  have hlt : y < h.bases.length := by
    cases he with
    | items h1 => exact hcl _ h1
    | property h1 => exact hcl.1 _ h1
    | pattern h1 => exact hcl.2 _ h1
    | member h1 => exact hcl _ h1
  unfold St.base
  rw [List.getElem?_eq_getElem hlt]; simp

theorem valid_marked_back (m : Marked C h h') (hc : Closed h) {x : Addr}
    (hx : h.base x ≠ none) {v : GoVal} (hv : Valid E h' x v) : Valid E h x v := by
  refine (hv (fun y v => ∀ x, h.base x ≠ none → Repl C h h' x y → Valid E h x v) fun y v hs x hx hy => ?_) x hx (.refl _)
  rcases hy with rfl | ⟨_, _, h3⟩
  · rw [valid_iff_step]
    refine step_marked_back m hx (fun x0 y0 v hr hp hq => hq x0 (closed_refers hc hr) hp) (fun z v hz hq => ?_) hs
    refine hq z ?_ (.refl _)
    obtain ⟨b, hb, hbs⟩ := base_of_shape hz
    obtain ⟨s', hs', hcl⟩ := hc _ b hb
    rw [hbs] at hs'
    cases hs'
    simp only at hcl
    unfold St.base
    rw [List.getElem?_eq_getElem hcl]; simp
  · unfold Step at hs
    rw [h3] at hs
    exact hs x hx (.refl _)

end

end GoRaml
