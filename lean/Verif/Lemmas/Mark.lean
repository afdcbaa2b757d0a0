import Verif.Lemmas.Visited
import Verif.Spec.Mark
import Verif.Model.Mark

/-!
# Recursion marking
-/

namespace GoRaml

open Spec

/-! ## The relation `Marked` -/

theorem Spec.Repl.refl {C : Addr → Prop} {h h' : St} (x : Addr) : Repl C h h' x x := Or.inl rfl

theorem Spec.Marked.refl (C : Addr → Prop) (h : St) : Marked C h h :=
  ⟨fun x b hb => ⟨b.shape, b.visited, hb, .same _⟩,
    fun _ => List.forall₂_same.2 fun _ _ => ⟨rfl, _, rfl, .refl _⟩,
    fun _ => List.forall₂_same.2 fun _ _ => ⟨rfl, _, rfl, .refl _⟩,
    fun _ => List.forall₂_same.2 fun _ _ => .refl _,
    fun y b h1 h2 => (by rw [h1] at h2; cases h2), fun y b h1 h2 => (by rw [h1] at h2; cases h2)⟩

section
variable {C : Addr → Prop} {h h' h'' : St}

theorem Spec.Marked.base_none (m : Marked C h h') {x : Addr} (hx : h'.base x = none) : h.base x = none := by
  cases hb : h.base x with
  | none => rfl
  | some b =>
    obtain ⟨s, v, h1, _⟩ := m.old x b hb
    rw [hx] at h1; cases h1

theorem Spec.Marked.shape (m : Marked C h h') {x : Addr} {s : Shape} (hs : h.shapeAt x = some s) (ha : ∀ f, s ≠ .array f) :
    h'.shapeAt x = some s := by
  obtain ⟨b, hb, hbs⟩ := base_of_shape hs
  obtain ⟨s', v, h1, h2⟩ := m.old x b hb
  rw [hbs] at h2
  cases h2 with
  | same => simp [St.shapeAt, h1]
  | items => exact absurd rfl (ha _)

theorem Spec.Marked.array (m : Marked C h h') {x : Addr} {f : ArrayF} (hs : h.shapeAt x = some (.array f)) :
    h'.shapeAt x = some (.array f) ∨
    ∃ i j, f.items = some i ∧ Repl C h h' i j ∧ h'.shapeAt x = some (.array { f with items := some j }) := by
  obtain ⟨b, hb, hbs⟩ := base_of_shape hs
  obtain ⟨s', v, h1, h2⟩ := m.old x b hb
  rw [hbs] at h2
  cases h2 with
  | same => exact Or.inl (by simp [St.shapeAt, h1])
  | items h3 h4 => exact Or.inr ⟨_, _, h3, h4, by simp [St.shapeAt, h1]⟩

theorem Spec.Repl.trans (m1 : Marked C h h') (m2 : Marked C h' h'') (hC : ∀ x, C x → (h.base x).isSome) {x y z : Addr}
    (h1 : Repl C h h' x y) (h2 : Repl C h' h'' y z) : Repl C h h'' x z := by
  rcases h1 with rfl | ⟨c1, n1, s1⟩
  · rcases h2 with rfl | ⟨c2, n2, s2⟩
    · exact .refl _
    · exact Or.inr ⟨c2, m1.base_none n2, s2⟩
  · rcases h2 with rfl | ⟨c2, n2, s2⟩
    · exact Or.inr ⟨c1, n1, m2.shape s1 (by simp)⟩
    · have := hC y c2
      rw [n1] at this; cases this

theorem forall₂_comp {α : Type} {R S T : α → α → Prop} (hT : ∀ a b c, R a b → S b c → T a c) :
    ∀ {l l' l'' : List α}, List.Forall₂ R l l' → List.Forall₂ S l' l'' → List.Forall₂ T l l''
  | _, _, _, .nil, .nil => .nil
  | _, _, _, .cons h1 h2, .cons h3 h4 => .cons (hT _ _ _ h1 h3) (forall₂_comp hT h2 h4)

theorem Spec.Marked.trans (m1 : Marked C h h') (m2 : Marked C h' h'') (hC : ∀ x, C x → (h.base x).isSome) :
    Marked C h h'' := by
  have rt : ∀ {x y z : Addr}, Repl C h h' x y → Repl C h' h'' y z → Repl C h h'' x z := fun h1 h2 => h1.trans m1 m2 hC h2
  have keep : ∀ {x y : Addr}, Repl C h h' x y → Repl C h h'' x y := fun h1 => rt h1 (.refl _)
  have keep2 : ∀ {x y : Addr}, Repl C h' h'' x y → Repl C h h'' x y := fun h1 => rt (.refl _) h1
  refine ⟨fun x b hb => ?_, fun p => ?_, fun p => ?_, fun p => ?_, fun y b h1 h2 => ?_, fun y b h1 h2 => ?_⟩
  · obtain ⟨s, v, h1, h2⟩ := m1.old x b hb
    obtain ⟨s', v', h3, h4⟩ := m2.old x _ h1
    refine ⟨s', v', h3, ?_⟩
    simp only at h4
    generalize b.shape = t at h2
    cases h2 with
    | same =>
      cases h4 with
      | same => exact .same _
      | items h5 h6 => exact .items h5 (keep2 h6)
    | @items f i j h5 h6 =>
      generalize ht : some (Shape.array { f with items := some j }) = t at h4
      cases h4 with
      | same => rw [← ht]; exact .items h5 (keep h6)
      | @items g i' j' h7 h8 =>
        simp only [Option.some.injEq, Shape.array.injEq] at ht
        subst ht
        simp only [Option.some.injEq] at h7
        subst h7
        exact .items h5 (rt h6 h8)
  · refine forall₂_comp ?_ (m1.props p) (m2.props p)
    rintro a b c ⟨e1, y, e2, e3⟩ ⟨e4, z, e5, e6⟩
    refine ⟨e4.trans e1, z, ?_, ?_⟩
    · rw [e5, e2]
    · rw [e2] at e6; exact rt e3 e6
  · refine forall₂_comp ?_ (m1.patProps p) (m2.patProps p)
    rintro a b c ⟨e1, y, e2, e3⟩ ⟨e4, z, e5, e6⟩
    refine ⟨e4.trans e1, z, ?_, ?_⟩
    · rw [e5, e2]
    · rw [e2] at e6; exact rt e3 e6
  · refine forall₂_comp ?_ (m1.slices p) (m2.slices p)
    intro a b c h1 h2
    exact rt h1 h2
  · cases hb : h'.base y with
    | none => exact m2.fresh y b hb h2
    | some b1 =>
      obtain ⟨e1, e2, x, e3, e4⟩ := m1.fresh y b1 h1 hb
      obtain ⟨s, v, e5, e6⟩ := m2.old y b1 hb
      rw [h2] at e5
      simp only [Option.some.injEq] at e5
      subst e5
      rw [e4] at e6
      cases e6
      refine ⟨e1, ?_, x, e3, rfl⟩
      have := m2.props b1.facetDefs
      rw [e2] at this
      exact List.forall₂_nil_left_iff.1 this
  · cases hb : h'.base y with
    | none => exact m2.roots y b hb h2
    | some b1 =>
      obtain ⟨s, v, e5, _⟩ := m2.old y b1 hb
      rw [h2] at e5
      cases e5
      exact m1.roots y b1 h1 hb

end

/-! ## Visited flags -/

/-- Visited flags are unchanged; new types are not visited. -/
structure SameVis (h h' : St) : Prop where
  old : ∀ x, h.base x ≠ none → visitedAt h' x = visitedAt h x
  fresh : ∀ y, h.base y = none → visitedAt h' y ≠ some true

theorem visitedAt_none {h : St} {x : Addr} (hx : h.base x = none) : visitedAt h x = none := by simp [visitedAt, hx]

theorem SameVis.refl (h : St) : SameVis h h := ⟨fun _ _ => rfl, fun y hy => by rw [visitedAt_none hy]; simp⟩

theorem SameVis.trans {h h' h'' : St} {C : Addr → Prop} (m : Marked C h h') (s1 : SameVis h h') (s2 : SameVis h' h'') :
    SameVis h h'' := by
  refine ⟨fun x hx => ?_, fun y hy => ?_⟩
  · have : h'.base x ≠ none := fun hn => hx (m.base_none hn)
    rw [s2.old x this, s1.old x hx]
  · by_cases hy' : h'.base y = none
    · exact s2.fresh y hy'
    · rw [s2.old y hy']; exact s1.fresh y hy

theorem SameVis.true_back {h h' : St} (s : SameVis h h') {x : Addr} (hv : visitedAt h' x = some true) :
    visitedAt h x = some true := by
  by_cases hx : h.base x = none
  · exact absurd hv (s.fresh x hx)
  · rw [← s.old x hx]; exact hv

/-! ## Finished types -/

/-- No type reachable from here is visited, and no path from here is infinite. -/
inductive Good (h : St) : Addr → Prop
  | intro {x : Addr} : visitedAt h x = some false → (∀ y, Refers h x y → Good h y) → Good h x

theorem refers_recursive {h : St} {x y z : Addr} (hs : h.shapeAt x = some (.recursive y)) : ¬ Refers h x z := by
  rintro ⟨s, h1, h2⟩
  rw [hs] at h1; cases h1; cases h2

theorem Good.leaf {h : St} {x y : Addr} (hs : h.shapeAt x = some (.recursive y)) (hv : visitedAt h x = some false) :
    Good h x := .intro hv fun _ hz => absurd hz (refers_recursive hs)

theorem forall₂_mem_right {α β : Type} {R : α → β → Prop} : ∀ {l : List α} {l' : List β}, List.Forall₂ R l l' →
    ∀ b ∈ l', ∃ a ∈ l, R a b
  | _, _, .nil, b, hb => by cases hb
  | _, _, .cons h1 h2, b, hb => by
    rcases List.mem_cons.1 hb with rfl | hb
    · exact ⟨_, List.mem_cons_self, h1⟩
    · obtain ⟨a, ha, hr⟩ := forall₂_mem_right h2 b hb
      exact ⟨a, List.mem_cons_of_mem _ ha, hr⟩

theorem forall₂_get {α β : Type} {R : α → β → Prop} : ∀ {l : List α} {l' : List β}, List.Forall₂ R l l' →
    ∀ (k : Nat) b, l'[k]? = some b → ∃ a, l[k]? = some a ∧ R a b
  | _, _, .nil, k, b, hb => by simp at hb
  | _, _, .cons h1 h2, 0, b, hb => by
    simp only [List.getElem?_cons_zero, Option.some.injEq] at hb
    exact ⟨_, rfl, hb ▸ h1⟩
  | _, _, .cons h1 h2, k + 1, b, hb => forall₂_get h2 k b (by simpa using hb)

/-- References of an old type after marking come from references before. -/
theorem refers_back {C : Addr → Prop} {h h' : St} (m : Marked C h h') {x y : Addr} (hx : h.base x ≠ none)
    (hr : Refers h' x y) : ∃ z, Refers h x z ∧ Repl C h h' z y := by
  obtain ⟨s, hs, he⟩ := hr
  cases hb : h.base x with
  | none => exact absurd hb hx
  | some b =>
    obtain ⟨s', v, h1, h2⟩ := m.old x b hb
    have hs' : s' = some s := by simpa [St.shapeAt, h1] using hs
    subst hs'
    generalize hbs : b.shape = t at h2
    have hsh : h.shapeAt x = t := by simp [St.shapeAt, hb, hbs]
    cases h2 with
    | same =>
      cases he with
      | items h3 => exact ⟨_, ⟨_, hsh, .items h3⟩, .refl _⟩
      | property h3 =>
        obtain ⟨e, he, _, z, h5, h6⟩ := forall₂_mem_right (m.props _) _ h3
        rw [h5]
        exact ⟨_, ⟨_, hsh, .property he⟩, h6⟩
      | pattern h3 =>
        obtain ⟨e, he, _, z, h5, h6⟩ := forall₂_mem_right (m.patProps _) _ h3
        rw [h5]
        exact ⟨_, ⟨_, hsh, .pattern he⟩, h6⟩
      | member h3 =>
        obtain ⟨e, he, h6⟩ := forall₂_mem_right (m.slices _) _ h3
        exact ⟨_, ⟨_, hsh, .member he⟩, h6⟩
    | items h3 h4 =>
      cases he with
      | items h5 =>
        simp only [Option.some.injEq] at h5
        subst h5
        exact ⟨_, ⟨_, hsh, .items h3⟩, h4⟩

theorem facets_back {C : Addr → Prop} {h h' : St} (m : Marked C h h') {x y : Addr} (hx : h.base x ≠ none)
    (hr : MarkEdge h' x y) : ∃ z, MarkEdge h x z ∧ Repl C h h' z y := by
  cases hr with
  | refers hr =>
    obtain ⟨z, h1, h2⟩ := refers_back m hx hr
    exact ⟨z, .refers h1, h2⟩
  | @facet b' p h1 h2 =>
    cases hb : h.base x with
    | none => exact absurd hb hx
    | some b =>
      obtain ⟨s', v, h3, h4⟩ := m.old x b hb
      rw [h1] at h3
      simp only [Option.some.injEq] at h3
      have hf : b'.facetDefs = b.facetDefs := by rw [h3]
      rw [hf] at h2
      obtain ⟨e, he, _, z, h5, h6⟩ := forall₂_mem_right (m.props _) _ h2
      rw [h5]
      exact ⟨_, .facet hb he, h6⟩

/-- A new recursive reference is finished. -/
theorem Repl.good_new {h h' : St} (sv : SameVis h h') {x y : Addr} (hn : h.base y = none)
    (hs : h'.shapeAt y = some (.recursive x)) : Good h' y := by
  refine .leaf hs ?_
  have h1 := sv.fresh y hn
  obtain ⟨b, hb, _⟩ := base_of_shape hs
  simp only [visitedAt, hb, Option.map_some] at h1 ⊢
  cases hv : b.visited with
  | true => exact absurd (by rw [hv]) h1
  | false => rfl

theorem Good.exists {h : St} {x : Addr} (g : Good h x) : h.base x ≠ none := by
  cases g with
  | intro hv _ => intro hn; rw [visitedAt_none hn] at hv; cases hv

theorem Good.marked {C : Addr → Prop} {h h' : St} (m : Marked C h h') (sv : SameVis h h') {x : Addr} (g : Good h x) :
    Good h' x := by
  induction g with
  | @intro x hv hc ih =>
    have hx : h.base x ≠ none := fun hn => by rw [visitedAt_none hn] at hv; cases hv
    refine .intro (by rw [sv.old x hx]; exact hv) fun y hy => ?_
    obtain ⟨z, h1, h2⟩ := refers_back m hx hy
    rcases h2 with rfl | ⟨_, h3, h4⟩
    · exact ih _ h1
    · exact Repl.good_new sv h3 h4

theorem Good.repl {C : Addr → Prop} {h h' : St} (m : Marked C h h') (sv : SameVis h h') {x y : Addr} (g : Good h x)
    (r : Repl C h h' x y) : Good h' y := by
  rcases r with rfl | ⟨_, h3, h4⟩
  · exact g.marked m sv
  · exact Repl.good_new sv h3 h4

/-- Clearing the flag of a visited type changes nothing for finished types. -/
theorem Good.unflag {h h' : St} (a : Addr) (hs : ∀ x, h'.shapeAt x = h.shapeAt x) (hp : h'.pmaps = h.pmaps)
    (hpp : h'.ppmaps = h.ppmaps) (hsl : h'.slices = h.slices) (hv : ∀ x, x ≠ a → visitedAt h' x = visitedAt h x)
    (hva : visitedAt h a = some true) {x : Addr} (g : Good h x) : Good h' x := by
  induction g with
  | @intro x hvx hc ih =>
    have hxa : x ≠ a := fun e => by subst e; rw [hva] at hvx; cases hvx
    refine .intro (by rw [hv x hxa]; exact hvx) fun y hy => ih y ?_
    obtain ⟨s, h1, h2⟩ := hy
    refine ⟨s, by rw [← hs]; exact h1, ?_⟩
    cases h2 with
    | items h3 => exact .items h3
    | property h3 => exact .property (by simpa [St.props, hp] using h3)
    | pattern h3 => exact .pattern (by simpa [St.patProps, hpp] using h3)
    | member h3 => exact .member (by simpa [St.slice, hsl] using h3)

theorem Good.noInfinitePath {h : St} {a : Addr} (g : Good h a) : NoInfinitePath h a := by
  intro f hf
  by_contra hcon
  have hall : ∀ n, Refers h (f n) (f (n + 1)) := fun n => by
    by_contra hn
    exact hcon ⟨n, hn⟩
  have key : ∀ x, Good h x → ∀ n, f n ≠ x := by
    intro x g
    induction g with
    | @intro x _ _ ih =>
      intro n hn
      exact ih (f (n + 1)) (hn ▸ hall n) (n + 1) rfl
  exact key a g 0 hf

end GoRaml
