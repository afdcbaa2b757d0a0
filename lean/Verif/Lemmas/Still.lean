import Verif.Lemmas.WholeEnds

/-!
# Marking leaves nothing to mark

If the call on a type returns without a recursive shape, then everything that can be reached from the type through components is unwrapped and not visited, and no chain of components is
infinite.  Marking such a type again changes nothing.
-/

namespace GoRaml.Still

open GoRaml GoRaml.Spec GoRaml.Load GoRaml.Whole

/-- Everything reached is unwrapped and not visited, and every chain of components ends. -/
inductive Calm (h : St) : Addr → Prop
  | intro {x : Addr} {b : Base} : h.base x = some b → b.unwrapped = true → b.visited = false → (∀ y, MarkEdge h x y → Calm h y) → Calm h x

/-- No more types are visited than before. -/
def NoMore (h h' : St) : Prop := ∀ x, visitedAt h' x = some true → visitedAt h x = some true

theorem noMore {h h' : St} (s : SameVis h h') : NoMore h h' := fun x hx => by
  by_cases hn : h.base x = none
  · exact absurd hx (s.fresh x hn)
  · rw [← s.old x hn]; exact hx

theorem calm_new {C : Addr → Prop} {h h' : St} (m : Marked C h h') (v : NoMore h h') {x y : Addr} (hn : h.base y = none) (hs : h'.shapeAt y = some (.recursive x)) : Calm h' y := by
  obtain ⟨b, hb, hbs⟩ := base_of_shape hs
  obtain ⟨h1, h2, _⟩ := m.fresh y b hn hb
  refine .intro hb h1 ?_ fun z hz => ?_
  · cases hv : b.visited with
    | false => rfl
    | true =>
      have := v y (by simp [visitedAt, hb, hv])
      rw [visitedAt_none hn] at this
      cases this
  · cases hz with
    | refers hr => exact absurd hr (refers_recursive hs)
    | facet hb' hp => rw [hb] at hb'; cases hb'; rw [h2] at hp; cases hp

theorem Calm.marked {C : Addr → Prop} {h h' : St} (m : Marked C h h') (n : NoMore h h') {x : Addr} (g : Calm h x) : Calm h' x := by
  induction g with
  | @intro x b hb hu hv hc ih =>
    obtain ⟨s, v, h1, _⟩ := m.old x b hb
    refine .intro h1 hu ?_ fun y hy => ?_
    · cases v with
      | false => rfl
      | true =>
        have := n x (by simp [visitedAt, h1])
        simp [visitedAt, hb, hv] at this
    · obtain ⟨z, h2, h3⟩ := facets_back m (by rw [hb]; simp) hy
      rcases h3 with rfl | ⟨_, h4, h5⟩
      · exact ih _ h2
      · exact calm_new m n h4 h5

theorem Calm.repl {C : Addr → Prop} {h h' : St} (m : Marked C h h') (n : NoMore h h') {x y : Addr} (g : Calm h x) (r : Repl C h h' x y) : Calm h' y := by
  rcases r with rfl | ⟨_, h3, h4⟩
  · exact g.marked m n
  · exact calm_new m n h3 h4

section
variable {h0 : St}

/-- The outcome of marking `a`. -/
structure MPost (h0 h h' : St) (a : Addr) (o : Option Addr) : Prop where
  marked : Marked (There h0) h h'
  vis : SameVis h h'
  made : ∀ y, o = some y → There h0 a ∧ h.base y = none ∧ h'.shapeAt y = some (.recursive a)
  calm : o = none → Calm h' a
  flag : visitedAt h a = some (o.isSome)

/-- What the recursive call does. -/
def MarkRec (h0 : St) (rec : Addr → M St (Option Addr)) : Prop := ∀ h a o h', Whole.MInv h0 h → rec a h = (.ok o, h') → MPost h0 h h' a o

theorem markProp_ends {rec : Addr → M St (Option Addr)} (hrec : MarkRec h0 rec) {g g' : St} {i k : Nat}
    (inv : Whole.MInv h0 g)
    (hr : markProp rec i k g = (.ok (), g')) :
    Marked (There h0) g g' ∧ SameVis g g' ∧ ∀ p, (g'.props (some i))[k]? = some p → Calm g' p.2.base := by
  unfold markProp at hr
  cases hk : (g.props (some i))[k]? with
  | none =>
    simp only [hk, Prod.mk.injEq, true_and] at hr
    subst hr
    exact ⟨.refl _ _, .refl _, fun p hp => by rw [hk] at hp; cases hp⟩
  | some kp =>
    simp only [hk] at hr
    obtain ⟨rs, g1, e1, e2⟩ := M.bind_ok.1 hr
    have hp := hrec g _ rs g1 inv  e1
    cases rs with
    | none =>
      obtain ⟨_, rfl⟩ := M.ret_ok.1 e2
      refine ⟨hp.marked, hp.vis, fun p hp' => ?_⟩
      obtain ⟨q, h1, _, y, h3, h4⟩ := forall₂_get (hp.marked.props _) k p hp'
      rw [hk] at h1
      cases h1
      rw [h3]
      rcases h4 with rfl | ⟨_, h5, h6⟩
      · exact hp.calm rfl
      · exact calm_new hp.marked (noMore hp.vis) h5 h6
    | some r =>
      simp only [whenSome, Heap.setPropAt, Prod.mk.injEq, true_and] at e2
      subst e2
      obtain ⟨c1, c2, c3⟩ := hp.made r rfl
      have hm := marked_setProp hp.marked hk (r := r) (Or.inr ⟨c1, c2, c3⟩)
      have hv := sameVis_maps hp.vis (h'' := { g1 with pmaps := g1.pmaps.modify i fun m =>
        (List.set m k (kp.1, { kp.2 with base := r }) : List _) }) rfl
      refine ⟨hm, hv, fun p hp' => ?_⟩
      rw [props_modify _ _ _ rfl, if_pos rfl] at hp'
      have hlen : k < (g1.props (some i)).length := by
        rw [← (hp.marked.props (some i)).length_eq]; exact (List.getElem?_eq_some_iff.1 hk).1
      have : p = (kp.1, { kp.2 with base := r }) := by
        have h2 := List.getElem?_set_self (l := g1.props (some i)) (a := (kp.1, { kp.2 with base := r })) hlen
        exact Option.some.inj (hp'.symm.trans h2)
      rw [this]
      exact calm_new hm (noMore hv) c2 c3

theorem markPatProp_ends {rec : Addr → M St (Option Addr)} (hrec : MarkRec h0 rec) {g g' : St} {i k : Nat}
    (inv : Whole.MInv h0 g)
    (hr : markPatProp rec i k g = (.ok (), g')) :
    Marked (There h0) g g' ∧ SameVis g g' ∧ ∀ p, (g'.patProps (some i))[k]? = some p → Calm g' p.2.base := by
  unfold markPatProp at hr
  cases hk : (g.patProps (some i))[k]? with
  | none =>
    simp only [hk, Prod.mk.injEq, true_and] at hr
    subst hr
    exact ⟨.refl _ _, .refl _, fun p hp => by rw [hk] at hp; cases hp⟩
  | some kp =>
    simp only [hk] at hr
    obtain ⟨rs, g1, e1, e2⟩ := M.bind_ok.1 hr
    have hp := hrec g _ rs g1 inv  e1
    cases rs with
    | none =>
      obtain ⟨_, rfl⟩ := M.ret_ok.1 e2
      refine ⟨hp.marked, hp.vis, fun p hp' => ?_⟩
      obtain ⟨q, h1, _, y, h3, h4⟩ := forall₂_get (hp.marked.patProps _) k p hp'
      rw [hk] at h1
      cases h1
      rw [h3]
      rcases h4 with rfl | ⟨_, h5, h6⟩
      · exact hp.calm rfl
      · exact calm_new hp.marked (noMore hp.vis) h5 h6
    | some r =>
      simp only [whenSome, Heap.setPatPropAt, Prod.mk.injEq, true_and] at e2
      subst e2
      obtain ⟨c1, c2, c3⟩ := hp.made r rfl
      have hm := marked_setPatProp hp.marked hk (r := r) (Or.inr ⟨c1, c2, c3⟩)
      have hv := sameVis_maps hp.vis (h'' := { g1 with ppmaps := g1.ppmaps.modify i fun m =>
        (List.set m k (kp.1, { kp.2 with base := r }) : List _) }) rfl
      refine ⟨hm, hv, fun p hp' => ?_⟩
      rw [patProps_modify _ _ _ rfl, if_pos rfl] at hp'
      have hlen : k < (g1.patProps (some i)).length := by
        rw [← (hp.marked.patProps (some i)).length_eq]; exact (List.getElem?_eq_some_iff.1 hk).1
      have : p = (kp.1, { kp.2 with base := r }) := by
        have h2 := List.getElem?_set_self (l := g1.patProps (some i)) (a := (kp.1, { kp.2 with base := r })) hlen
        exact Option.some.inj (hp'.symm.trans h2)
      rw [this]
      exact calm_new hm (noMore hv) c2 c3

theorem markMember_ends {rec : Addr → M St (Option Addr)} (hrec : MarkRec h0 rec) {g g' : St} {i k : Nat}
    (inv : Whole.MInv h0 g)
    (hr : markMember rec i k g = (.ok (), g')) :
    Marked (There h0) g g' ∧ SameVis g g' ∧ ∀ m, (g'.slice (some i))[k]? = some m → Calm g' m := by
  unfold markMember at hr
  cases hk : (g.slice (some i))[k]? with
  | none =>
    simp only [hk, Prod.mk.injEq, true_and] at hr
    subst hr
    exact ⟨.refl _ _, .refl _, fun p hp => by rw [hk] at hp; cases hp⟩
  | some m =>
    simp only [hk] at hr
    obtain ⟨rs, g1, e1, e2⟩ := M.bind_ok.1 hr
    have hp := hrec g _ rs g1 inv  e1
    cases rs with
    | none =>
      obtain ⟨_, rfl⟩ := M.ret_ok.1 e2
      refine ⟨hp.marked, hp.vis, fun p hp' => ?_⟩
      obtain ⟨q, h1, h4⟩ := forall₂_get (hp.marked.slices _) k p hp'
      rw [hk] at h1
      cases h1
      rcases h4 with rfl | ⟨_, h5, h6⟩
      · exact hp.calm rfl
      · exact calm_new hp.marked (noMore hp.vis) h5 h6
    | some r =>
      simp only [whenSome, Heap.setSliceAt, Prod.mk.injEq, true_and] at e2
      subst e2
      obtain ⟨c1, c2, c3⟩ := hp.made r rfl
      have hm := marked_setSlice hp.marked hk (r := r) (Or.inr ⟨c1, c2, c3⟩)
      have hv := sameVis_maps hp.vis (h'' := { g1 with slices := g1.slices.modify i fun l => l.set k r }) rfl
      refine ⟨hm, hv, fun p hp' => ?_⟩
      rw [slice_modify _ _ _ rfl, if_pos rfl] at hp'
      have hlen : k < (g1.slice (some i)).length := by
        rw [← (hp.marked.slices (some i)).length_eq]; exact (List.getElem?_eq_some_iff.1 hk).1
      have : p = r := Option.some.inj (hp'.symm.trans (List.getElem?_set_self hlen))
      rw [this]
      exact calm_new hm (noMore hv) c2 c3

theorem markProps_ends {rec : Addr → M St (Option Addr)} (hrec : MarkRec h0 rec) {h h' : St} {i : Nat}
    (inv : Whole.MInv h0 h)
    (hr : markProps rec i h = (.ok (), h')) :
    Marked (There h0) h h' ∧ SameVis h h' ∧ ∀ p ∈ h'.props (some i), Calm h' p.2.base := by
  have := forEach_post (I := fun g => Marked (There h0) h g ∧ SameVis h g)
    (Q := fun k g => ∀ p, (g.props (some i))[k]? = some p → Calm g p.2.base) ?_ _ h h' ⟨.refl _ _, .refl _⟩ hr
  · obtain ⟨⟨m, sv⟩, hq, _⟩ := this
    refine ⟨m, sv, fun p hp => ?_⟩
    obtain ⟨k, hk, he⟩ := List.getElem_of_mem hp
    refine hq k ?_ p (List.getElem?_eq_some_iff.2 ⟨hk, he⟩)
    rw [List.mem_range, (m.props (some i)).length_eq]
    exact hk
  · rintro k g g' ⟨m, sv⟩ hrun
    obtain ⟨m1, sv1, hg⟩ := markProp_ends hrec (inv.step m sv)  hrun
    refine ⟨⟨m.trans m1 inv.exists, SameVis.trans m sv sv1⟩, hg, fun k' hk' p hp => ?_⟩
    obtain ⟨q, h1, _, y, h3, h4⟩ := forall₂_get (m1.props _) k' p hp
    rw [h3]
    exact (hk' q h1).repl m1 (noMore sv1) h4

theorem markPatProps_ends {rec : Addr → M St (Option Addr)} (hrec : MarkRec h0 rec) {h h' : St} {i : Nat}
    (inv : Whole.MInv h0 h)
    (hr : markPatProps rec i h = (.ok (), h')) :
    Marked (There h0) h h' ∧ SameVis h h' ∧ ∀ p ∈ h'.patProps (some i), Calm h' p.2.base := by
  have := forEach_post (I := fun g => Marked (There h0) h g ∧ SameVis h g)
    (Q := fun k g => ∀ p, (g.patProps (some i))[k]? = some p → Calm g p.2.base) ?_ _ h h' ⟨.refl _ _, .refl _⟩ hr
  · obtain ⟨⟨m, sv⟩, hq, _⟩ := this
    refine ⟨m, sv, fun p hp => ?_⟩
    obtain ⟨k, hk, he⟩ := List.getElem_of_mem hp
    refine hq k ?_ p (List.getElem?_eq_some_iff.2 ⟨hk, he⟩)
    rw [List.mem_range, (m.patProps (some i)).length_eq]
    exact hk
  · rintro k g g' ⟨m, sv⟩ hrun
    obtain ⟨m1, sv1, hg⟩ := markPatProp_ends hrec (inv.step m sv)  hrun
    refine ⟨⟨m.trans m1 inv.exists, SameVis.trans m sv sv1⟩, hg, fun k' hk' p hp => ?_⟩
    obtain ⟨q, h1, _, y, h3, h4⟩ := forall₂_get (m1.patProps _) k' p hp
    rw [h3]
    exact (hk' q h1).repl m1 (noMore sv1) h4

theorem markMembers_ends {rec : Addr → M St (Option Addr)} (hrec : MarkRec h0 rec) {h h' : St} {i : Nat}
    (inv : Whole.MInv h0 h)
    (hr : markMembers rec i h = (.ok (), h')) :
    Marked (There h0) h h' ∧ SameVis h h' ∧ ∀ m ∈ h'.slice (some i), Calm h' m := by
  have := forEach_post (I := fun g => Marked (There h0) h g ∧ SameVis h g)
    (Q := fun k g => ∀ p, (g.slice (some i))[k]? = some p → Calm g p) ?_ _ h h' ⟨.refl _ _, .refl _⟩ hr
  · obtain ⟨⟨m, sv⟩, hq, _⟩ := this
    refine ⟨m, sv, fun p hp => ?_⟩
    obtain ⟨k, hk, he⟩ := List.getElem_of_mem hp
    refine hq k ?_ p (List.getElem?_eq_some_iff.2 ⟨hk, he⟩)
    rw [List.mem_range, (m.slices (some i)).length_eq]
    exact hk
  · rintro k g g' ⟨m, sv⟩ hrun
    obtain ⟨m1, sv1, hg⟩ := markMember_ends hrec (inv.step m sv)  hrun
    refine ⟨⟨m.trans m1 inv.exists, SameVis.trans m sv sv1⟩, hg, fun k' hk' p hp => ?_⟩
    obtain ⟨q, h1, h4⟩ := forall₂_get (m1.slices _) k' p hp
    exact (hk' q h1).repl m1 (noMore sv1) h4

theorem markShape_ends {rec : Addr → M St (Option Addr)} (hrec : MarkRec h0 rec) {h h' : St} {a : Addr}
    (inv : Whole.MInv h0 h) (hr : markShape rec a (h.shapeAt a) h = (.ok (), h')) :
    Marked (There h0) h h' ∧ SameVis h h' ∧ ∀ y, Refers h' a y → Calm h' y := by
  have none_case : ∀ s, h.shapeAt a = s → (∀ y, ¬ Refers h a y) → h' = h →
      Marked (There h0) h h' ∧ SameVis h h' ∧ ∀ y, Refers h' a y → Calm h' y := by
    rintro s hs hn rfl
    exact ⟨.refl _ _, .refl _, fun y hy => absurd hy (hn y)⟩
  cases hs : h.shapeAt a with
  | none =>
    rw [hs] at hr
    obtain ⟨_, e⟩ := M.ret_ok.1 hr
    exact none_case _ hs (by rintro y ⟨s, h1, _⟩; rw [hs] at h1; cases h1) e.symm
  | some s =>
    rw [hs] at hr
    cases s
    case array f =>
      simp only [markShape] at hr
      cases hi : f.items with
      | none =>
        rw [hi] at hr
        obtain ⟨_, e⟩ := M.ret_ok.1 hr
        refine none_case _ hs ?_ e.symm
        rintro y ⟨s, h1, h2⟩
        rw [hs] at h1; cases h1; cases h2 with
        | items h3 => rw [hi] at h3; cases h3
      | some i =>
        rw [hi] at hr
        simp only [whenSome] at hr
        obtain ⟨rs, g, e1, e2⟩ := M.bind_ok.1 hr
        have hp := hrec h i rs g inv  e1
        cases rs with
        | none =>
          obtain ⟨_, e⟩ := M.ret_ok.1 e2
          subst e
          refine ⟨hp.marked, hp.vis, fun y hy => ?_⟩
          obtain ⟨s, h1, h2⟩ := hy
          rcases hp.marked.array hs with h3 | ⟨i', j, h3, h4, h5⟩
          · rw [h3] at h1; cases h1; cases h2 with
            | items h6 => rw [hi] at h6; cases h6; exact hp.calm rfl
          · rw [hi] at h3; cases h3
            rw [h5] at h1; cases h1; cases h2 with
            | items h6 =>
              simp only [Option.some.injEq] at h6
              subst h6
              rcases h4 with rfl | ⟨_, h7, h8⟩
              · exact hp.calm rfl
              · exact calm_new hp.marked (noMore hp.vis) h7 h8
        | some r =>
          obtain ⟨c1, c2, c3⟩ := hp.made r rfl
          obtain ⟨h'', e3, hm, hv, hsa, hso⟩ := marked_setArray hp.marked hs hi (r := r) (Or.inr ⟨c1, c2, c3⟩)
          simp only [whenSome] at e2
          rw [e3] at e2
          simp only [Prod.mk.injEq, true_and] at e2
          subst e2
          have hvis : SameVis h h'' := ⟨fun x hx => by rw [hv]; exact hp.vis.old x hx, fun y hy => by rw [hv]; exact hp.vis.fresh y hy⟩
          refine ⟨hm, hvis, fun y hy => ?_⟩
          obtain ⟨s, h1, h2⟩ := hy
          rw [hsa] at h1; cases h1; cases h2 with
          | items h6 =>
            simp only [Option.some.injEq] at h6
            subst h6
            have hra : r ≠ a := fun e => by
              subst e
              obtain ⟨b, hb, _⟩ := base_of_shape hs
              rw [hb] at c2; cases c2
            exact calm_new hm (noMore hvis) c2 (by rw [hso r hra]; exact c3)
    case object f =>
      simp only [markShape] at hr
      obtain ⟨_, g, e1, e2⟩ := M.bind_ok.1 hr
      have hsg : ∀ g, Marked (There h0) h g → g.shapeAt a = some (.object f) := fun g m => m.shape hs (by simp)
      have h1 : Marked (There h0) h g ∧ SameVis h g ∧ ∀ p ∈ g.props f.properties, Calm g p.2.base := by
        cases hp : f.properties with
        | none =>
          rw [hp] at e1
          obtain ⟨_, e⟩ := M.ret_ok.1 e1
          subst e
          exact ⟨.refl _ _, .refl _, fun p hp => by simp [St.props] at hp⟩
        | some i =>
          rw [hp] at e1
          exact markProps_ends hrec inv e1
      obtain ⟨m1, sv1, hg1⟩ := h1
      have inv1 := inv.step m1 sv1
      have h2 : Marked (There h0) g h' ∧ SameVis g h' ∧ ∀ p ∈ h'.patProps f.patternProperties, Calm h' p.2.base := by
        cases hp : f.patternProperties with
        | none =>
          rw [hp] at e2
          obtain ⟨_, e⟩ := M.ret_ok.1 e2
          subst e
          exact ⟨.refl _ _, .refl _, fun p hp => by simp [St.patProps] at hp⟩
        | some i =>
          rw [hp] at e2
          exact markPatProps_ends hrec inv1 e2
      obtain ⟨m2, sv2, hg2⟩ := h2
      refine ⟨m1.trans m2 inv.exists, SameVis.trans m1 sv1 sv2, fun y hy => ?_⟩
      obtain ⟨s, h3, h4⟩ := hy
      rw [hsg h' (m1.trans m2 inv.exists)] at h3
      cases h3
      cases h4 with
      | property h5 =>
        obtain ⟨q, h6, _, y, h8, h9⟩ := forall₂_mem_right (m2.props _) _ h5
        rw [h8]
        exact (hg1 q h6).repl m2 (noMore sv2) h9
      | pattern h5 => exact hg2 _ h5
    case union l e =>
      simp only [markShape] at hr
      cases l with
      | none =>
        obtain ⟨_, e⟩ := M.ret_ok.1 hr
        refine none_case _ hs ?_ e.symm
        rintro y ⟨s, h1, h2⟩
        rw [hs] at h1; cases h1; cases h2 with
        | member h3 => simp [St.slice] at h3
      | some i =>
        have hsg : ∀ g, Marked (There h0) h g → g.shapeAt a = some (.union (some i) e) := fun g m => m.shape hs (by simp)
        obtain ⟨m1, sv1, hg⟩ := markMembers_ends hrec inv hr
        refine ⟨m1, sv1, fun y hy => ?_⟩
        obtain ⟨s, h3, h4⟩ := hy
        rw [hsg h' m1] at h3
        cases h3
        cases h4 with
        | member h5 => exact hg _ h5
    all_goals
      obtain ⟨_, e⟩ := M.ret_ok.1 hr
      refine none_case _ hs ?_ e.symm
      rintro y ⟨s, h1, h2⟩
      rw [hs] at h1
      cases h1
      cases h2

theorem mark_ends : ∀ n, MarkRec h0 (mark n) := by
  intro n
  induction n with
  | zero => intro h a o h' _ hr; simp [mark, M.diverge] at hr
  | succ n ih =>
    intro h a o h' inv hr
    have hr0 := hr
    unfold mark at hr
    obtain ⟨b, h1, e1, hr1⟩ := M.bind_ok.1 hr
    obtain ⟨hb, he1⟩ := getBase_ok.1 e1
    rw [he1] at hr1
    by_cases hu : b.unwrapped = true
    · simp only [hu, Bool.not_true, Bool.false_eq_true, if_false] at hr1
      by_cases hv : b.visited = true
      · have hva : visitedAt h a = some true := by simp [visitedAt, hb, hv]
        have hC : There h0 a := by
          cases hn : h0.base a with
          | none => exact absurd hva (inv.fresh a hn)
          | some _ => rw [There, hn]; rfl
        obtain ⟨h2, L, hrun, k1, k2, k3, k4, k5, k6, k7, k8⟩ := mark_visited hb hu hv n
        rw [hrun] at hr0
        simp only [Prod.mk.injEq, Out.ok.injEq] at hr0
        obtain ⟨rfl, rfl⟩ := hr0
        obtain ⟨m, sv, hn, hs⟩ := marked_new hC k1 k2 k3 k4 k5 k6 k7 k8
        exact ⟨m, sv, fun y hy => by cases hy; exact ⟨hC, hn, hs⟩, fun hn => (by cases hn), hva⟩
      · simp only [hv, Bool.false_eq_true, if_false] at hr1
        have hv' : b.visited = false := by simpa using hv
        have hva : visitedAt h a = some false := by simp [visitedAt, hb, hv']
        rw [M.bind_of_ok (upd_run _ _ _)] at hr1
        have mf : Marked (There h0) h _ := marked_flag a true h
        have hvf := visited_flag a true h
        have hsf : ∀ x, ({ h with bases := h.bases.modify a fun x => { x with visited := true } } : St).shapeAt x = h.shapeAt x := by
          intro x
          unfold St.shapeAt
          rw [base_upd]
          cases h.base x with
          | none => rfl
          | some b => simp only [Option.map_some]; split <;> rfl
        generalize ({ h with bases := h.bases.modify a fun x => { x with visited := true } } : St) = hf at hr1 mf hvf hsf
        obtain ⟨_, h2, e2, hr2⟩ := M.bind_ok.1 hr1
        rw [M.bind_of_ok (upd_run _ _ _)] at hr2
        have mu : Marked (There h0) h2 _ := marked_flag a false h2
        have hvu := visited_flag a false h2
        generalize ({ h2 with bases := h2.bases.modify a fun x => { x with visited := false } } : St) = h3 at hr2 mu hvu
        obtain ⟨_, h4, e3, hr3⟩ := M.bind_ok.1 hr2
        obtain ⟨ho, hh'⟩ := M.ret_ok.1 hr3
        subst ho hh'
        have hbs : b.shape = hf.shapeAt a := by rw [hsf]; simp [St.shapeAt, hb]
        rw [hbs] at e2
        have h2post : Marked (There h0) hf h2 ∧ SameVis hf h2 ∧ ∀ y, Refers h2 a y → Calm h2 y := by
          by_cases hold : h0.base a = none
          · obtain ⟨_, f2, x, _, f4⟩ := inv.marked.fresh a b hold hb
            have hrec : hf.shapeAt a = some (.recursive x) := by rw [← hbs, f4]
            rw [hrec] at e2
            obtain ⟨_, e⟩ := M.ret_ok.1 e2
            subst e
            exact ⟨.refl _ _, .refl _, fun y hy => absurd hy (refers_recursive hrec)⟩
          · refine markShape_ends ih ⟨inv.marked.trans mf fun x h => h, fun y hy => ?_⟩ e2
            have : ¬ a = y := fun e => by subst e; exact hold hy
            rw [hvf, if_neg this]
            exact inv.fresh y hy
        obtain ⟨m2, sv2, hg2⟩ := h2post
        have hva2 : visitedAt h2 a = some true := by
          have hex : hf.base a ≠ none := fun hn => by
            have := mf.base_none hn; rw [hb] at this; cases this
          rw [sv2.old a hex, hvf, if_pos rfl, hva]; rfl
        have m3 : Marked (There h0) h h3 := (mf.trans m2 inv.exists).trans mu inv.exists
        have hexf : ∀ x, h.base x = none → hf.base x = none := by
          intro x hx
          cases hfx : hf.base x with
          | none => rfl
          | some y =>
            have : visitedAt hf x = none := by
              rw [hvf, visitedAt_none hx]; simp
            rw [visitedAt, hfx] at this; cases this
        have sv3 : SameVis h h3 := by
          refine ⟨fun x hx => ?_, fun y hy => ?_⟩
          · rw [hvu]
            by_cases hax : a = x
            · subst hax; rw [if_pos rfl, hva2, hva]; rfl
            · rw [if_neg hax, sv2.old x (fun hn => hx (mf.base_none hn)), hvf, if_neg hax]
          · have hya : ¬ a = y := fun e => by subst e; rw [hb] at hy; cases hy
            rw [hvu, if_neg hya]
            exact sv2.fresh y (hexf y hy)
        have inv3 := inv.step m3 sv3
        have h34 : Marked (There h0) h3 h4 ∧ SameVis h3 h4 ∧ ∀ p ∈ h4.props b.facetDefs, Calm h4 p.2.base := by
          cases hfd : b.facetDefs with
          | none =>
            rw [hfd] at e3
            obtain ⟨_, e⟩ := M.ret_ok.1 e3
            subst e
            exact ⟨.refl _ _, .refl _, fun p hp => by simp [St.props] at hp⟩
          | some i =>
            rw [hfd] at e3
            exact markProps_ends ih inv3 e3
        obtain ⟨m4, sv4, hg4⟩ := h34
        have m24 : Marked (There h0) h2 h4 := mu.trans m4 fun x hx => by
          have hx := inv.exists x hx
          cases hbx : h.base x with
          | none => rw [hbx] at hx; cases hx
          | some bx =>
            obtain ⟨_, _, q, _⟩ := (mf.trans m2 inv.exists).old x bx hbx
            rw [q]; rfl
        have hb4 : ∃ s v, h4.base a = some { b with shape := s, visited := v } := by
          obtain ⟨s, v, k1, _⟩ := (m3.trans m4 inv.exists).old a b hb
          exact ⟨s, v, k1⟩
        obtain ⟨s4, v4, k4⟩ := hb4
        refine ⟨m3.trans m4 inv.exists, SameVis.trans m3 sv3 sv4, fun y hy => (by cases hy), fun _ => ?_, hva⟩
        have v24 : NoMore h2 h4 := fun x hx => by
          have hx := noMore sv4 x hx
          rw [hvu] at hx
          by_cases hax : a = x
          · subst hax; exact hva2
          · rwa [if_neg hax] at hx
        have hv4 : v4 = false := by
          have := (SameVis.trans m3 sv3 sv4).old a (by rw [hb]; simp)
          rw [hva, visitedAt, k4] at this
          simpa using this
        refine .intro k4 hu hv4 fun y hy => ?_
        cases hy with
        | refers hr =>
          have h2a : h2.base a ≠ none := fun hn => by rw [visitedAt_none hn] at hva2; cases hva2
          obtain ⟨z, q1, q2⟩ := refers_back m24 h2a hr
          exact (hg2 z q1).repl m24 v24 q2
        | facet hb' hp =>
          rw [k4] at hb'
          cases hb'
          exact hg4 _ hp
    · simp only [hu, Bool.not_false, if_true] at hr1
      cases hr1

end

end GoRaml.Still
