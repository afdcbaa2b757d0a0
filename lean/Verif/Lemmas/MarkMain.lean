import Verif.Lemmas.MarkRun

/-!
# Recursion marking: partial correctness
-/

namespace GoRaml

open Spec Relation

theorem markEdge_exists {h : St} {x y : Addr} (he : MarkEdge h x y) : (h.base x).isSome := by
  cases he with
  | refers hr =>
    obtain ⟨s, hs, _⟩ := hr
    obtain ⟨b, hb, _⟩ := base_of_shape hs
    rw [hb]; rfl
  | facet hb _ => rw [hb]; rfl

theorem onCycle_exists {h : St} {x : Addr} (hc : OnCycle h x) : (h.base x).isSome := by
  obtain ⟨y, h1, _⟩ := TransGen.head'_iff.1 hc
  exact markEdge_exists h1

theorem forEach_post {f : Nat → M St Unit} {I : St → Prop} {Q : Nat → St → Prop}
    (hstep : ∀ k g g', I g → f k g = (.ok (), g') → I g' ∧ Q k g' ∧ ∀ k', Q k' g → Q k' g') :
    ∀ ks g g', I g → M.forEach f ks g = (.ok (), g') → I g' ∧ (∀ k ∈ ks, Q k g') ∧ ∀ k', Q k' g → Q k' g' := by
  intro ks
  induction ks with
  | nil =>
    intro g g' hI hr
    obtain ⟨_, rfl⟩ := M.ret_ok.1 hr
    exact ⟨hI, by simp, fun _ h => h⟩
  | cons k ks ih =>
    intro g g' hI hr
    obtain ⟨_, g1, e1, e2⟩ := M.bind_ok.1 hr
    obtain ⟨hI1, hQ1, hk1⟩ := hstep k g g1 hI e1
    obtain ⟨hI2, hQ2, hk2⟩ := ih g1 g' hI1 e2
    refine ⟨hI2, fun k' hk' => ?_, fun k' hk' => hk2 k' (hk1 k' hk')⟩
    rcases List.mem_cons.1 hk' with rfl | hk'
    · exact hk2 _ hQ1
    · exact hQ2 k' hk'

section
variable {h0 : St}

/-- What holds of the heap during marking, started in `h0`. -/
structure MInv (h0 h : St) : Prop where
  marked : Marked (OnCycle h0) h0 h
  fresh : ∀ y, h0.base y = none → visitedAt h y ≠ some true

theorem MInv.exists {h : St} (i : MInv h0 h) : ∀ x, OnCycle h0 x → (h.base x).isSome := by
  intro x hx
  have := onCycle_exists hx
  cases hb : h0.base x with
  | none => rw [hb] at this; cases this
  | some b =>
    obtain ⟨s, v, h1, _⟩ := i.marked.old x b hb
    rw [h1]; rfl

theorem MInv.step {h h' : St} (i : MInv h0 h) (m : Marked (OnCycle h0) h h') (sv : SameVis h h') : MInv h0 h' := by
  refine ⟨i.marked.trans m fun x => onCycle_exists, fun y hy => ?_⟩
  by_cases hn : h.base y = none
  · exact sv.fresh y hn
  · rw [sv.old y hn]; exact i.fresh y hy

/-- All types in progress lead to the type about to be marked, unless it is a recursive reference made on the way. -/
def MPre (h0 h : St) (a : Addr) : Prop := h0.base a = none ∨ ∀ z, visitedAt h z = some true → TransGen (MarkEdge h0) z a

/-- All types in progress lead to `a`, or are `a`. -/
structure MAt (h0 h : St) (a : Addr) : Prop where
  old : (h0.base a).isSome
  path : ∀ z, visitedAt h z = some true → ReflTransGen (MarkEdge h0) z a

theorem MAt.step {h h' : St} {a : Addr} (t : MAt h0 h a) (sv : SameVis h h') : MAt h0 h' a :=
  ⟨t.old, fun z hz => t.path z (sv.true_back hz)⟩

theorem MAt.pre {h : St} {a y : Addr} (i : MInv h0 h) (t : MAt h0 h a) (he : MarkEdge h a y) : MPre h0 h y := by
  have ha : h0.base a ≠ none := by
    intro hn; have := t.old; rw [hn] at this; cases this
  obtain ⟨z, h1, h2⟩ := facets_back i.marked ha he
  rcases h2 with rfl | ⟨_, h3, _⟩
  · exact Or.inr fun w hw => TransGen.tail' (t.path w hw) h1
  · exact Or.inl h3

/-- The outcome of marking `a`. -/
structure MPost (h0 h h' : St) (a : Addr) (o : Option Addr) : Prop where
  marked : Marked (OnCycle h0) h h'
  vis : SameVis h h'
  made : ∀ y, o = some y → OnCycle h0 a ∧ h.base y = none ∧ h'.shapeAt y = some (.recursive a)
  good : o = none → Good h' a

def MRec (h0 : St) (rec : Addr → M St (Option Addr)) : Prop :=
  ∀ h a o h', MInv h0 h → MPre h0 h a → rec a h = (.ok o, h') → MPost h0 h h' a o

theorem sameVis_maps {h h' h'' : St} (sv : SameVis h h') (hb : h''.bases = h'.bases) : SameVis h h'' := by
  have : ∀ x, visitedAt h'' x = visitedAt h' x := fun x => by unfold visitedAt St.base; rw [hb]
  exact ⟨fun x hx => by rw [this]; exact sv.old x hx, fun y hy => by rw [this]; exact sv.fresh y hy⟩

theorem markProp_ok {rec : Addr → M St (Option Addr)} (hrec : MRec h0 rec) {g g' : St} {a : Addr} {i k : Nat}
    (inv : MInv h0 g) (t : MAt h0 g a) (hedge : ∀ p ∈ g.props (some i), MarkEdge g a p.2.base)
    (hr : markProp rec i k g = (.ok (), g')) :
    Marked (OnCycle h0) g g' ∧ SameVis g g' ∧ ∀ p, (g'.props (some i))[k]? = some p → Good g' p.2.base := by
  unfold markProp at hr
  cases hk : (g.props (some i))[k]? with
  | none =>
    simp only [hk, Prod.mk.injEq, true_and] at hr
    subst hr
    exact ⟨.refl _ _, .refl _, fun p hp => by rw [hk] at hp; cases hp⟩
  | some kp =>
    simp only [hk] at hr
    obtain ⟨rs, g1, e1, e2⟩ := M.bind_ok.1 hr
    have hp := hrec g _ rs g1 inv (t.pre inv (hedge _ (List.mem_of_getElem? hk))) e1
    cases rs with
    | none =>
      obtain ⟨_, rfl⟩ := M.ret_ok.1 e2
      refine ⟨hp.marked, hp.vis, fun p hp' => ?_⟩
      obtain ⟨q, h1, _, y, h3, h4⟩ := forall₂_get (hp.marked.props _) k p hp'
      rw [hk] at h1
      cases h1
      rw [h3]
      rcases h4 with rfl | ⟨_, h5, h6⟩
      · exact hp.good rfl
      · exact Repl.good_new hp.vis h5 h6
    | some r =>
      simp only [whenSome, Heap.setPropAt, Prod.mk.injEq, true_and] at e2
      subst e2
      obtain ⟨c1, c2, c3⟩ := hp.made r rfl
      have hm := marked_setProp hp.marked hk (r := r) (Or.inr ⟨c1, c2, c3⟩)
      have hv := sameVis_maps hp.vis (h'' := { g1 with pmaps := g1.pmaps.modify i fun m =>
        (List.set m k (kp.1, { kp.2 with base := r }) : List _) }) rfl
      refine ⟨hm, hv, fun p hp' => ?_⟩
      rw [props_modify _ _ _ rfl, if_pos rfl] at hp'
      have hlen : k < (g1.props (some i)).length := by
        rw [← (hp.marked.props (some i)).length_eq]; exact (List.getElem?_eq_some_iff.1 hk).1
      have : p = (kp.1, { kp.2 with base := r }) := by
        have h2 := List.getElem?_set_self (l := g1.props (some i)) (a := (kp.1, { kp.2 with base := r })) hlen
        exact Option.some.inj (hp'.symm.trans h2)
      rw [this]
      exact Repl.good_new hv c2 c3

theorem markPatProp_ok {rec : Addr → M St (Option Addr)} (hrec : MRec h0 rec) {g g' : St} {a : Addr} {i k : Nat}
    (inv : MInv h0 g) (t : MAt h0 g a) (hedge : ∀ p ∈ g.patProps (some i), MarkEdge g a p.2.base)
    (hr : markPatProp rec i k g = (.ok (), g')) :
    Marked (OnCycle h0) g g' ∧ SameVis g g' ∧ ∀ p, (g'.patProps (some i))[k]? = some p → Good g' p.2.base := by
  unfold markPatProp at hr
  cases hk : (g.patProps (some i))[k]? with
  | none =>
    simp only [hk, Prod.mk.injEq, true_and] at hr
    subst hr
    exact ⟨.refl _ _, .refl _, fun p hp => by rw [hk] at hp; cases hp⟩
  | some kp =>
    simp only [hk] at hr
    obtain ⟨rs, g1, e1, e2⟩ := M.bind_ok.1 hr
    have hp := hrec g _ rs g1 inv (t.pre inv (hedge _ (List.mem_of_getElem? hk))) e1
    cases rs with
    | none =>
      obtain ⟨_, rfl⟩ := M.ret_ok.1 e2
      refine ⟨hp.marked, hp.vis, fun p hp' => ?_⟩
      obtain ⟨q, h1, _, y, h3, h4⟩ := forall₂_get (hp.marked.patProps _) k p hp'
      rw [hk] at h1
      cases h1
      rw [h3]
      rcases h4 with rfl | ⟨_, h5, h6⟩
      · exact hp.good rfl
      · exact Repl.good_new hp.vis h5 h6
    | some r =>
      simp only [whenSome, Heap.setPatPropAt, Prod.mk.injEq, true_and] at e2
      subst e2
      obtain ⟨c1, c2, c3⟩ := hp.made r rfl
      have hm := marked_setPatProp hp.marked hk (r := r) (Or.inr ⟨c1, c2, c3⟩)
      have hv := sameVis_maps hp.vis (h'' := { g1 with ppmaps := g1.ppmaps.modify i fun m =>
        (List.set m k (kp.1, { kp.2 with base := r }) : List _) }) rfl
      refine ⟨hm, hv, fun p hp' => ?_⟩
      rw [patProps_modify _ _ _ rfl, if_pos rfl] at hp'
      have hlen : k < (g1.patProps (some i)).length := by
        rw [← (hp.marked.patProps (some i)).length_eq]; exact (List.getElem?_eq_some_iff.1 hk).1
      have : p = (kp.1, { kp.2 with base := r }) := by
        have h2 := List.getElem?_set_self (l := g1.patProps (some i)) (a := (kp.1, { kp.2 with base := r })) hlen
        exact Option.some.inj (hp'.symm.trans h2)
      rw [this]
      exact Repl.good_new hv c2 c3

theorem markMember_ok {rec : Addr → M St (Option Addr)} (hrec : MRec h0 rec) {g g' : St} {a : Addr} {i k : Nat}
    (inv : MInv h0 g) (t : MAt h0 g a) (hedge : ∀ m ∈ g.slice (some i), MarkEdge g a m)
    (hr : markMember rec i k g = (.ok (), g')) :
    Marked (OnCycle h0) g g' ∧ SameVis g g' ∧ ∀ m, (g'.slice (some i))[k]? = some m → Good g' m := by
  unfold markMember at hr
  cases hk : (g.slice (some i))[k]? with
  | none =>
    simp only [hk, Prod.mk.injEq, true_and] at hr
    subst hr
    exact ⟨.refl _ _, .refl _, fun p hp => by rw [hk] at hp; cases hp⟩
  | some m =>
    simp only [hk] at hr
    obtain ⟨rs, g1, e1, e2⟩ := M.bind_ok.1 hr
    have hp := hrec g _ rs g1 inv (t.pre inv (hedge _ (List.mem_of_getElem? hk))) e1
    cases rs with
    | none =>
      obtain ⟨_, rfl⟩ := M.ret_ok.1 e2
      refine ⟨hp.marked, hp.vis, fun p hp' => ?_⟩
      obtain ⟨q, h1, h4⟩ := forall₂_get (hp.marked.slices _) k p hp'
      rw [hk] at h1
      cases h1
      rcases h4 with rfl | ⟨_, h5, h6⟩
      · exact hp.good rfl
      · exact Repl.good_new hp.vis h5 h6
    | some r =>
      simp only [whenSome, Heap.setSliceAt, Prod.mk.injEq, true_and] at e2
      subst e2
      obtain ⟨c1, c2, c3⟩ := hp.made r rfl
      have hm := marked_setSlice hp.marked hk (r := r) (Or.inr ⟨c1, c2, c3⟩)
      have hv := sameVis_maps hp.vis (h'' := { g1 with slices := g1.slices.modify i fun l => l.set k r }) rfl
      refine ⟨hm, hv, fun p hp' => ?_⟩
      rw [slice_modify _ _ _ rfl, if_pos rfl] at hp'
      have hlen : k < (g1.slice (some i)).length := by
        rw [← (hp.marked.slices (some i)).length_eq]; exact (List.getElem?_eq_some_iff.1 hk).1
      have : p = r := Option.some.inj (hp'.symm.trans (List.getElem?_set_self hlen))
      rw [this]
      exact Repl.good_new hv c2 c3

theorem markProps_ok {rec : Addr → M St (Option Addr)} (hrec : MRec h0 rec) {h h' : St} {a : Addr} {i : Nat}
    (inv : MInv h0 h) (t : MAt h0 h a)
    (hedge : ∀ g, Marked (OnCycle h0) h g → ∀ p ∈ g.props (some i), MarkEdge g a p.2.base)
    (hr : markProps rec i h = (.ok (), h')) :
    Marked (OnCycle h0) h h' ∧ SameVis h h' ∧ ∀ p ∈ h'.props (some i), Good h' p.2.base := by
  have := forEach_post (I := fun g => Marked (OnCycle h0) h g ∧ SameVis h g)
    (Q := fun k g => ∀ p, (g.props (some i))[k]? = some p → Good g p.2.base) ?_ _ h h' ⟨.refl _ _, .refl _⟩ hr
  · obtain ⟨⟨m, sv⟩, hq, _⟩ := this
    refine ⟨m, sv, fun p hp => ?_⟩
    obtain ⟨k, hk, he⟩ := List.getElem_of_mem hp
    refine hq k ?_ p (List.getElem?_eq_some_iff.2 ⟨hk, he⟩)
    rw [List.mem_range, (m.props (some i)).length_eq]
    exact hk
  · rintro k g g' ⟨m, sv⟩ hrun
    obtain ⟨m1, sv1, hg⟩ := markProp_ok hrec (inv.step m sv) (t.step sv) (hedge g m) hrun
    refine ⟨⟨m.trans m1 inv.exists, SameVis.trans m sv sv1⟩, hg, fun k' hk' p hp => ?_⟩
    obtain ⟨q, h1, _, y, h3, h4⟩ := forall₂_get (m1.props _) k' p hp
    rw [h3]
    exact (hk' q h1).repl m1 sv1 h4

theorem markPatProps_ok {rec : Addr → M St (Option Addr)} (hrec : MRec h0 rec) {h h' : St} {a : Addr} {i : Nat}
    (inv : MInv h0 h) (t : MAt h0 h a)
    (hedge : ∀ g, Marked (OnCycle h0) h g → ∀ p ∈ g.patProps (some i), MarkEdge g a p.2.base)
    (hr : markPatProps rec i h = (.ok (), h')) :
    Marked (OnCycle h0) h h' ∧ SameVis h h' ∧ ∀ p ∈ h'.patProps (some i), Good h' p.2.base := by
  have := forEach_post (I := fun g => Marked (OnCycle h0) h g ∧ SameVis h g)
    (Q := fun k g => ∀ p, (g.patProps (some i))[k]? = some p → Good g p.2.base) ?_ _ h h' ⟨.refl _ _, .refl _⟩ hr
  · obtain ⟨⟨m, sv⟩, hq, _⟩ := this
    refine ⟨m, sv, fun p hp => ?_⟩
    obtain ⟨k, hk, he⟩ := List.getElem_of_mem hp
    refine hq k ?_ p (List.getElem?_eq_some_iff.2 ⟨hk, he⟩)
    rw [List.mem_range, (m.patProps (some i)).length_eq]
    exact hk
  · rintro k g g' ⟨m, sv⟩ hrun
    obtain ⟨m1, sv1, hg⟩ := markPatProp_ok hrec (inv.step m sv) (t.step sv) (hedge g m) hrun
    refine ⟨⟨m.trans m1 inv.exists, SameVis.trans m sv sv1⟩, hg, fun k' hk' p hp => ?_⟩
    obtain ⟨q, h1, _, y, h3, h4⟩ := forall₂_get (m1.patProps _) k' p hp
    rw [h3]
    exact (hk' q h1).repl m1 sv1 h4

theorem markMembers_ok {rec : Addr → M St (Option Addr)} (hrec : MRec h0 rec) {h h' : St} {a : Addr} {i : Nat}
    (inv : MInv h0 h) (t : MAt h0 h a)
    (hedge : ∀ g, Marked (OnCycle h0) h g → ∀ m ∈ g.slice (some i), MarkEdge g a m)
    (hr : markMembers rec i h = (.ok (), h')) :
    Marked (OnCycle h0) h h' ∧ SameVis h h' ∧ ∀ m ∈ h'.slice (some i), Good h' m := by
  have := forEach_post (I := fun g => Marked (OnCycle h0) h g ∧ SameVis h g)
    (Q := fun k g => ∀ p, (g.slice (some i))[k]? = some p → Good g p) ?_ _ h h' ⟨.refl _ _, .refl _⟩ hr
  · obtain ⟨⟨m, sv⟩, hq, _⟩ := this
    refine ⟨m, sv, fun p hp => ?_⟩
    obtain ⟨k, hk, he⟩ := List.getElem_of_mem hp
    refine hq k ?_ p (List.getElem?_eq_some_iff.2 ⟨hk, he⟩)
    rw [List.mem_range, (m.slices (some i)).length_eq]
    exact hk
  · rintro k g g' ⟨m, sv⟩ hrun
    obtain ⟨m1, sv1, hg⟩ := markMember_ok hrec (inv.step m sv) (t.step sv) (hedge g m) hrun
    refine ⟨⟨m.trans m1 inv.exists, SameVis.trans m sv sv1⟩, hg, fun k' hk' p hp => ?_⟩
    obtain ⟨q, h1, h4⟩ := forall₂_get (m1.slices _) k' p hp
    exact (hk' q h1).repl m1 sv1 h4

theorem markShape_ok {rec : Addr → M St (Option Addr)} (hrec : MRec h0 rec) {h h' : St} {a : Addr}
    (inv : MInv h0 h) (t : MAt h0 h a) (hr : markShape rec a (h.shapeAt a) h = (.ok (), h')) :
    Marked (OnCycle h0) h h' ∧ SameVis h h' ∧ ∀ y, Refers h' a y → Good h' y := by
  have none_case : ∀ s, h.shapeAt a = s → (∀ y, ¬ Refers h a y) → h' = h →
      Marked (OnCycle h0) h h' ∧ SameVis h h' ∧ ∀ y, Refers h' a y → Good h' y := by
    rintro s hs hn rfl
    exact ⟨.refl _ _, .refl _, fun y hy => absurd hy (hn y)⟩
  cases hs : h.shapeAt a with
  | none =>
    rw [hs] at hr
    obtain ⟨_, e⟩ := M.ret_ok.1 hr
    exact none_case _ hs (by rintro y ⟨s, h1, _⟩; rw [hs] at h1; cases h1) e.symm
  | some s =>
    rw [hs] at hr
    cases s
    case array f =>
      simp only [markShape] at hr
      cases hi : f.items with
      | none =>
        rw [hi] at hr
        obtain ⟨_, e⟩ := M.ret_ok.1 hr
        refine none_case _ hs ?_ e.symm
        rintro y ⟨s, h1, h2⟩
        rw [hs] at h1; cases h1; cases h2 with
        | items h3 => rw [hi] at h3; cases h3
      | some i =>
        rw [hi] at hr
        simp only [whenSome] at hr
        obtain ⟨rs, g, e1, e2⟩ := M.bind_ok.1 hr
        have hp := hrec h i rs g inv (t.pre inv (.refers ⟨_, hs, .items hi⟩)) e1
        cases rs with
        | none =>
          obtain ⟨_, e⟩ := M.ret_ok.1 e2
          subst e
          refine ⟨hp.marked, hp.vis, fun y hy => ?_⟩
          obtain ⟨s, h1, h2⟩ := hy
          rcases hp.marked.array hs with h3 | ⟨i', j, h3, h4, h5⟩
          · rw [h3] at h1; cases h1; cases h2 with
            | items h6 => rw [hi] at h6; cases h6; exact hp.good rfl
          · rw [hi] at h3; cases h3
            rw [h5] at h1; cases h1; cases h2 with
            | items h6 =>
              simp only [Option.some.injEq] at h6
              subst h6
              rcases h4 with rfl | ⟨_, h7, h8⟩
              · exact hp.good rfl
              · exact Repl.good_new hp.vis h7 h8
        | some r =>
          obtain ⟨c1, c2, c3⟩ := hp.made r rfl
          obtain ⟨h'', e3, hm, hv, hsa, hso⟩ := marked_setArray hp.marked hs hi (r := r) (Or.inr ⟨c1, c2, c3⟩)
          simp only [whenSome] at e2
          rw [e3] at e2
          simp only [Prod.mk.injEq, true_and] at e2
          subst e2
          have hvis : SameVis h h'' := ⟨fun x hx => by rw [hv]; exact hp.vis.old x hx, fun y hy => by rw [hv]; exact hp.vis.fresh y hy⟩
          refine ⟨hm, hvis, fun y hy => ?_⟩
          obtain ⟨s, h1, h2⟩ := hy
          rw [hsa] at h1; cases h1; cases h2 with
          | items h6 =>
            simp only [Option.some.injEq] at h6
            subst h6
            have hra : r ≠ a := fun e => by
              subst e
              obtain ⟨b, hb, _⟩ := base_of_shape hs
              rw [hb] at c2; cases c2
            exact Repl.good_new hvis c2 (by rw [hso r hra]; exact c3)
    case object f =>
      simp only [markShape] at hr
      obtain ⟨_, g, e1, e2⟩ := M.bind_ok.1 hr
      have hsg : ∀ g, Marked (OnCycle h0) h g → g.shapeAt a = some (.object f) := fun g m => m.shape hs (by simp)
      have h1 : Marked (OnCycle h0) h g ∧ SameVis h g ∧ ∀ p ∈ g.props f.properties, Good g p.2.base := by
        cases hp : f.properties with
        | none =>
          rw [hp] at e1
          obtain ⟨_, e⟩ := M.ret_ok.1 e1
          subst e
          exact ⟨.refl _ _, .refl _, fun p hp => by simp [St.props] at hp⟩
        | some i =>
          rw [hp] at e1
          exact markProps_ok hrec inv t (fun g m p hp' => .refers ⟨_, hsg g m, .property (by rw [hp]; exact hp')⟩) e1
      obtain ⟨m1, sv1, hg1⟩ := h1
      have inv1 := inv.step m1 sv1
      have t1 := t.step sv1
      have h2 : Marked (OnCycle h0) g h' ∧ SameVis g h' ∧ ∀ p ∈ h'.patProps f.patternProperties, Good h' p.2.base := by
        cases hp : f.patternProperties with
        | none =>
          rw [hp] at e2
          obtain ⟨_, e⟩ := M.ret_ok.1 e2
          subst e
          exact ⟨.refl _ _, .refl _, fun p hp => by simp [St.patProps] at hp⟩
        | some i =>
          rw [hp] at e2
          exact markPatProps_ok hrec inv1 t1 (fun g' m p hp' => .refers ⟨_, hsg g' (m1.trans m inv.exists), .pattern (by rw [hp]; exact hp')⟩) e2
      obtain ⟨m2, sv2, hg2⟩ := h2
      refine ⟨m1.trans m2 inv.exists, SameVis.trans m1 sv1 sv2, fun y hy => ?_⟩
      obtain ⟨s, h3, h4⟩ := hy
      rw [hsg h' (m1.trans m2 inv.exists)] at h3
      cases h3
      cases h4 with
      | property h5 =>
        obtain ⟨q, h6, _, y, h8, h9⟩ := forall₂_mem_right (m2.props _) _ h5
        rw [h8]
        exact (hg1 q h6).repl m2 sv2 h9
      | pattern h5 => exact hg2 _ h5
    case union l e =>
      simp only [markShape] at hr
      cases l with
      | none =>
        obtain ⟨_, e⟩ := M.ret_ok.1 hr
        refine none_case _ hs ?_ e.symm
        rintro y ⟨s, h1, h2⟩
        rw [hs] at h1; cases h1; cases h2 with
        | member h3 => simp [St.slice] at h3
      | some i =>
        have hsg : ∀ g, Marked (OnCycle h0) h g → g.shapeAt a = some (.union (some i) e) := fun g m => m.shape hs (by simp)
        obtain ⟨m1, sv1, hg⟩ := markMembers_ok hrec inv t (fun g m p hp' => .refers ⟨_, hsg g m, .member hp'⟩) hr
        refine ⟨m1, sv1, fun y hy => ?_⟩
        obtain ⟨s, h3, h4⟩ := hy
        rw [hsg h' m1] at h3
        cases h3
        cases h4 with
        | member h5 => exact hg _ h5
    all_goals
      obtain ⟨_, e⟩ := M.ret_ok.1 hr
      refine none_case _ hs ?_ e.symm
      rintro y ⟨s, h1, h2⟩
      rw [hs] at h1
      cases h1
      cases h2

theorem mark_post : ∀ n, MRec h0 (mark n) := by
  intro n
  induction n with
  | zero => intro h a o h' _ _ hr; simp [mark, M.diverge] at hr
  | succ n ih =>
    intro h a o h' inv pre hr
    have hr0 := hr
    unfold mark at hr
    obtain ⟨b, h1, e1, hr1⟩ := M.bind_ok.1 hr
    obtain ⟨hb, he1⟩ := getBase_ok.1 e1
    rw [he1] at hr1
    by_cases hu : b.unwrapped = true
    · simp only [hu, Bool.not_true, Bool.false_eq_true, if_false] at hr1
      by_cases hv : b.visited = true
      · have hva : visitedAt h a = some true := by simp [visitedAt, hb, hv]
        have hC : OnCycle h0 a := by
          rcases pre with hn | hp
          · exact absurd hva (inv.fresh a hn)
          · exact hp a hva
        obtain ⟨h2, L, hrun, k1, k2, k3, k4, k5, k6, k7, k8⟩ := mark_visited hb hu hv n
        rw [hrun] at hr0
        simp only [Prod.mk.injEq, Out.ok.injEq] at hr0
        obtain ⟨rfl, rfl⟩ := hr0
        obtain ⟨m, sv, hn, hs⟩ := marked_new hC k1 k2 k3 k4 k5 k6 k7 k8
        exact ⟨m, sv, fun y hy => by cases hy; exact ⟨hC, hn, hs⟩, fun hn => by cases hn⟩
      · simp only [hv, Bool.false_eq_true, if_false] at hr1
        have hv' : b.visited = false := by simpa using hv
        have hva : visitedAt h a = some false := by simp [visitedAt, hb, hv']
        rw [M.bind_of_ok (upd_run _ _ _)] at hr1
        have mf : Marked (OnCycle h0) h _ := marked_flag a true h
        have hvf := visited_flag a true h
        have hsf : ∀ x, ({ h with bases := h.bases.modify a fun x => { x with visited := true } } : St).shapeAt x = h.shapeAt x := by
          intro x
          unfold St.shapeAt
          rw [base_upd]
          cases h.base x with
          | none => rfl
          | some b => simp only [Option.map_some]; split <;> rfl
        generalize ({ h with bases := h.bases.modify a fun x => { x with visited := true } } : St) = hf at hr1 mf hvf hsf
        obtain ⟨_, h2, e2, hr2⟩ := M.bind_ok.1 hr1
        rw [M.bind_of_ok (upd_run _ _ _)] at hr2
        have mu : Marked (OnCycle h0) h2 _ := marked_flag a false h2
        have hvu := visited_flag a false h2
        have hsu : ∀ x, ({ h2 with bases := h2.bases.modify a fun x => { x with visited := false } } : St).shapeAt x = h2.shapeAt x := by
          intro x
          unfold St.shapeAt
          rw [base_upd]
          cases h2.base x with
          | none => rfl
          | some b => simp only [Option.map_some]; split <;> rfl
        have hpu : ({ h2 with bases := h2.bases.modify a fun x => { x with visited := false } } : St).pmaps = h2.pmaps := rfl
        have hppu : ({ h2 with bases := h2.bases.modify a fun x => { x with visited := false } } : St).ppmaps = h2.ppmaps := rfl
        have hslu : ({ h2 with bases := h2.bases.modify a fun x => { x with visited := false } } : St).slices = h2.slices := rfl
        generalize ({ h2 with bases := h2.bases.modify a fun x => { x with visited := false } } : St) = h3 at hr2 mu hvu hsu hpu hppu hslu
        obtain ⟨_, h4, e3, hr3⟩ := M.bind_ok.1 hr2
        obtain ⟨ho, hh'⟩ := M.ret_ok.1 hr3
        subst ho hh'
        have hbs : b.shape = hf.shapeAt a := by rw [hsf]; simp [St.shapeAt, hb]
        rw [hbs] at e2
        by_cases hold : h0.base a = none
        · -- a recursive reference made on the way
          obtain ⟨_, f2, x, _, f4⟩ := inv.marked.fresh a b hold hb
          have hrec : hf.shapeAt a = some (.recursive x) := by rw [← hbs, f4]
          rw [hrec] at e2
          obtain ⟨_, e⟩ := M.ret_ok.1 e2
          subst e
          have m3 : Marked (OnCycle h0) h h3 := mf.trans mu inv.exists
          have sv3 : SameVis h h3 := by
            have hall : ∀ x, visitedAt h3 x = visitedAt h x := by
              intro x
              rw [hvu, hvf]
              by_cases hax : a = x
              · subst hax; simp [hva]
              · simp [hax]
            exact ⟨fun x _ => hall x, fun y hy => by rw [hall, visitedAt_none hy]; simp⟩
          have hfac : h3.props b.facetDefs = [] := by
            have := m3.props b.facetDefs
            rw [f2] at this
            exact List.forall₂_nil_left_iff.1 this
          have hh4 : h4 = h3 := by
            cases hfd : b.facetDefs with
            | none => rw [hfd] at e3; exact ((M.ret_ok.1 e3).2).symm
            | some i =>
              rw [hfd] at e3 hfac
              simp only [whenSome, markProps, hfac, List.length_nil, List.range_zero, M.forEach] at e3
              exact ((M.ret_ok.1 e3).2).symm
          subst hh4
          refine ⟨m3, sv3, fun y hy => (by cases hy), fun _ => ?_⟩
          refine .leaf (y := x) (by rw [hsu]; exact hrec) ?_
          rw [sv3.old a (by rw [hb]; simp)]; exact hva
        · have tf : MAt h0 hf a := by
            refine ⟨by cases hx : h0.base a with | none => exact absurd hx hold | some _ => rfl, fun z hz => ?_⟩
            rw [hvf] at hz
            by_cases haz : a = z
            · subst haz; exact .refl
            · rw [if_neg haz] at hz
              rcases pre with hn | hp
              · exact absurd hn hold
              · exact (hp z hz).to_reflTransGen
          have invf : MInv h0 hf := by
            refine ⟨inv.marked.trans mf fun x => onCycle_exists, fun y hy => ?_⟩
            have : ¬ a = y := fun e => by subst e; exact hold hy
            rw [hvf, if_neg this]
            exact inv.fresh y hy
          obtain ⟨m2, sv2, hg2⟩ := markShape_ok ih invf tf e2
          have hva2 : visitedAt h2 a = some true := by
            have hex : hf.base a ≠ none := fun hn => by
              have := mf.base_none hn; rw [hb] at this; cases this
            rw [sv2.old a hex, hvf, if_pos rfl, hva]; rfl
          have m3 : Marked (OnCycle h0) h h3 := (mf.trans m2 inv.exists).trans mu inv.exists
          have hexf : ∀ x, h.base x = none → hf.base x = none := by
            intro x hx
            cases hfx : hf.base x with
            | none => rfl
            | some y =>
              have : visitedAt hf x = none := by
                rw [hvf, visitedAt_none hx]; simp
              rw [visitedAt, hfx] at this; cases this
          have sv3 : SameVis h h3 := by
            refine ⟨fun x hx => ?_, fun y hy => ?_⟩
            · rw [hvu]
              by_cases hax : a = x
              · subst hax; rw [if_pos rfl, hva2, hva]; rfl
              · rw [if_neg hax, sv2.old x (fun hn => hx (mf.base_none hn)), hvf, if_neg hax]
            · have hya : ¬ a = y := fun e => by subst e; rw [hb] at hy; cases hy
              rw [hvu, if_neg hya]
              exact sv2.fresh y (hexf y hy)
          have g3 : Good h3 a := by
            refine .intro (by rw [hvu, if_pos rfl, hva2]; rfl) fun y hy => ?_
            have hy2 : Refers h2 a y := by
              obtain ⟨s, k1, k2⟩ := hy
              refine ⟨s, by rw [← hsu]; exact k1, ?_⟩
              cases k2 with
              | items k3 => exact .items k3
              | property k3 => exact .property (by simpa [St.props, hpu] using k3)
              | pattern k3 => exact .pattern (by simpa [St.patProps, hppu] using k3)
              | member k3 => exact .member (by simpa [St.slice, hslu] using k3)
            refine (hg2 y hy2).unflag a hsu hpu hppu hslu (fun x hx => ?_) hva2
            rw [hvu, if_neg fun e => hx e.symm]
          have inv3 := inv.step m3 sv3
          have t3 : MAt h0 h3 a := by
            refine ⟨tf.old, fun z hz => ?_⟩
            rcases pre with hn | hp
            · exact absurd hn hold
            · exact (hp z (sv3.true_back hz)).to_reflTransGen
          have h34 : Marked (OnCycle h0) h3 h4 ∧ SameVis h3 h4 := by
            cases hfd : b.facetDefs with
            | none =>
              rw [hfd] at e3
              obtain ⟨_, e⟩ := M.ret_ok.1 e3
              subst e
              exact ⟨.refl _ _, .refl _⟩
            | some i =>
              rw [hfd] at e3
              obtain ⟨k1, k2, _⟩ := markProps_ok ih inv3 t3 (fun g m p hp => by
                obtain ⟨s, v, k1, _⟩ := (m3.trans m inv.exists).old a b hb
                exact .facet k1 (by simp only [hfd]; exact hp)) e3
              exact ⟨k1, k2⟩
          obtain ⟨m4, sv4⟩ := h34
          exact ⟨m3.trans m4 inv.exists, SameVis.trans m3 sv3 sv4, fun y hy => (by cases hy), fun _ => g3.marked m4 sv4⟩
    · simp only [hu, Bool.not_false, if_true] at hr1
      cases hr1

end

end GoRaml
