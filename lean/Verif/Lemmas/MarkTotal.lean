import Verif.Lemmas.MarkMain

/-!
# Recursion marking: termination
-/

namespace GoRaml

open Spec Relation

/-- The set of `ReadyToMark`. -/
def ReadySet (h : St) (S : Addr → Prop) : Prop :=
  ∀ x, S x → ∃ b, h.base x = some b ∧ b.unwrapped = true ∧ (∀ y, MarkEdge h x y → S y) ∧
    ∀ p ∈ h.props b.facetDefs, ∀ c, h.base p.2.base = some c → h.props c.facetDefs = []

/-- The set with the new recursive references. -/
def Extend (h h' : St) (S : Addr → Prop) (x : Addr) : Prop := S x ∨ (h.base x = none ∧ (h'.base x).isSome)

theorem Spec.Marked.props_nil {C : Addr → Prop} {h h' : St} (m : Marked C h h') {p : Option Nat} (hp : h.props p = []) :
    h'.props p = [] := by
  have := m.props p
  rw [hp] at this
  exact List.forall₂_nil_left_iff.1 this

theorem Spec.Repl.extend {C : Addr → Prop} {h h' : St} {S : Addr → Prop} {x y : Addr} (hx : S x) (r : Repl C h h' x y) :
    Extend h h' S y := by
  rcases r with rfl | ⟨_, h1, h2⟩
  · exact Or.inl hx
  · obtain ⟨b, hb, _⟩ := base_of_shape h2
    exact Or.inr ⟨h1, by rw [hb]; rfl⟩

theorem ReadySet.marked {C : Addr → Prop} {h h' : St} {S : Addr → Prop} (m : Marked C h h') (rs : ReadySet h S) :
    ReadySet h' (Extend h h' S) := by
  rintro x (hx | ⟨hn, hs⟩)
  · obtain ⟨b, hb, hu, he, hf⟩ := rs x hx
    obtain ⟨s, v, h1, h2⟩ := m.old x b hb
    refine ⟨_, h1, hu, fun y hy => ?_, fun p hp c hc => ?_⟩
    · obtain ⟨z, h3, h4⟩ := facets_back m (by rw [hb]; simp) hy
      exact h4.extend (he z h3)
    · obtain ⟨e, h3, _, y, h5, h6⟩ := forall₂_mem_right (m.props _) _ hp
      rw [h5] at hc
      rcases h6 with h6 | ⟨_, h7, _⟩
      · simp only [h6] at hc
        obtain ⟨c0, hc0, _⟩ := rs _ (he _ (.facet hb h3))
        obtain ⟨s', v', h8, _⟩ := m.old _ c0 hc0
        rw [hc] at h8
        simp only [Option.some.injEq] at h8
        have : c.facetDefs = c0.facetDefs := by rw [h8]
        rw [this]
        exact m.props_nil (hf e h3 c0 hc0)
      · exact (m.fresh _ c h7 hc).2.1
  · cases hb : h'.base x with
    | none => rw [hb] at hs; cases hs
    | some b =>
      obtain ⟨hu, hf, y, _, hsh⟩ := m.fresh x b hn hb
      refine ⟨b, rfl, hu, fun z hz => ?_, fun p hp => by rw [hf] at hp; cases hp⟩
      cases hz with
      | refers hr => exact absurd hr (refers_recursive (y := y) (by simp [St.shapeAt, hb, hsh]))
      | facet h1 h2 =>
        rw [hb] at h1
        cases h1
        rw [hf] at h2; cases h2

/-- At most `m` types are neither visited nor recursive references. -/
def Left (h : St) (m : Nat) : Prop :=
  ∃ L : List Addr, L.length ≤ m ∧ ∀ x, visitedAt h x = some false → (∀ y, h.shapeAt x ≠ some (.recursive y)) → x ∈ L

theorem visited_exists {h : St} {x : Addr} {v : Bool} (hv : visitedAt h x = some v) : h.base x ≠ none := fun hn => by
  rw [visitedAt_none hn] at hv; cases hv

theorem Left.marked {C : Addr → Prop} {h h' : St} {m : Nat} (mk : Marked C h h') (sv : SameVis h h') (l : Left h m) :
    Left h' m := by
  obtain ⟨L, h1, h2⟩ := l
  refine ⟨L, h1, fun x hv hs => ?_⟩
  by_cases hx : h.base x = none
  · exfalso
    cases hb : h'.base x with
    | none => exact visited_exists hv hb
    | some b =>
      obtain ⟨_, _, y, _, hsh⟩ := mk.fresh x b hx hb
      exact hs y (by simp [St.shapeAt, hb, hsh])
  · refine h2 x (by rw [← sv.old x hx]; exact hv) fun y hy => hs y (mk.shape hy (by simp))

theorem forEach_total {f : Nat → M St Unit} {I : St → Prop} (hstep : ∀ k g, I g → ∃ g', f k g = (.ok (), g') ∧ I g') :
    ∀ ks g, I g → ∃ g', M.forEach f ks g = (.ok (), g') ∧ I g' := by
  intro ks
  induction ks with
  | nil => intro g hI; exact ⟨g, rfl, hI⟩
  | cons k ks ih =>
    intro g hI
    obtain ⟨g1, e1, hI1⟩ := hstep k g hI
    obtain ⟨g2, e2, hI2⟩ := ih g1 hI1
    exact ⟨g2, by rw [M.forEach, M.bind_of_ok e1, e2], hI2⟩

section
variable {h0 : St} {rec : Addr → M St (Option Addr)}

theorem markProps_total (hrec : MRec h0 rec) {h : St} {a : Addr} {i : Nat} (inv : MInv h0 h) (t : MAt h0 h a)
    (hedge : ∀ g, Marked (OnCycle h0) h g → ∀ p ∈ g.props (some i), MarkEdge g a p.2.base)
    (htot : ∀ g, Marked (OnCycle h0) h g → SameVis h g → ∀ p ∈ g.props (some i), ∃ o g', rec p.2.base g = (.ok o, g')) :
    ∃ h', markProps rec i h = (.ok (), h') := by
  have hstep : ∀ k g, (Marked (OnCycle h0) h g ∧ SameVis h g) → ∃ g', markProp rec i k g = (.ok (), g') ∧
      (Marked (OnCycle h0) h g' ∧ SameVis h g') := by
    rintro k g ⟨m, sv⟩
    have : ∃ g', markProp rec i k g = (.ok (), g') := by
      unfold markProp
      cases hk : (g.props (some i))[k]? with
      | none => exact ⟨_, rfl⟩
      | some kp =>
        obtain ⟨o, g', hr⟩ := htot g m sv kp (List.mem_of_getElem? hk)
        simp only []
        rw [M.bind_of_ok hr]
        cases o <;> exact ⟨_, rfl⟩
    obtain ⟨g', hr⟩ := this
    obtain ⟨m1, sv1, _⟩ := markProp_ok hrec (inv.step m sv) (t.step sv) (hedge g m) hr
    exact ⟨g', hr, m.trans m1 inv.exists, SameVis.trans m sv sv1⟩
  obtain ⟨h', hr, _⟩ := forEach_total hstep (List.range (h.props (some i)).length) h ⟨.refl _ _, .refl _⟩
  exact ⟨h', hr⟩

theorem markPatProps_total (hrec : MRec h0 rec) {h : St} {a : Addr} {i : Nat} (inv : MInv h0 h) (t : MAt h0 h a)
    (hedge : ∀ g, Marked (OnCycle h0) h g → ∀ p ∈ g.patProps (some i), MarkEdge g a p.2.base)
    (htot : ∀ g, Marked (OnCycle h0) h g → SameVis h g → ∀ p ∈ g.patProps (some i), ∃ o g', rec p.2.base g = (.ok o, g')) :
    ∃ h', markPatProps rec i h = (.ok (), h') := by
  have hstep : ∀ k g, (Marked (OnCycle h0) h g ∧ SameVis h g) → ∃ g', markPatProp rec i k g = (.ok (), g') ∧
      (Marked (OnCycle h0) h g' ∧ SameVis h g') := by
    rintro k g ⟨m, sv⟩
    have : ∃ g', markPatProp rec i k g = (.ok (), g') := by
      unfold markPatProp
      cases hk : (g.patProps (some i))[k]? with
      | none => exact ⟨_, rfl⟩
      | some kp =>
        obtain ⟨o, g', hr⟩ := htot g m sv kp (List.mem_of_getElem? hk)
        simp only []
        rw [M.bind_of_ok hr]
        cases o <;> exact ⟨_, rfl⟩
    obtain ⟨g', hr⟩ := this
    obtain ⟨m1, sv1, _⟩ := markPatProp_ok hrec (inv.step m sv) (t.step sv) (hedge g m) hr
    exact ⟨g', hr, m.trans m1 inv.exists, SameVis.trans m sv sv1⟩
  obtain ⟨h', hr, _⟩ := forEach_total hstep (List.range (h.patProps (some i)).length) h ⟨.refl _ _, .refl _⟩
  exact ⟨h', hr⟩

theorem markMembers_total (hrec : MRec h0 rec) {h : St} {a : Addr} {i : Nat} (inv : MInv h0 h) (t : MAt h0 h a)
    (hedge : ∀ g, Marked (OnCycle h0) h g → ∀ m ∈ g.slice (some i), MarkEdge g a m)
    (htot : ∀ g, Marked (OnCycle h0) h g → SameVis h g → ∀ m ∈ g.slice (some i), ∃ o g', rec m g = (.ok o, g')) :
    ∃ h', markMembers rec i h = (.ok (), h') := by
  have hstep : ∀ k g, (Marked (OnCycle h0) h g ∧ SameVis h g) → ∃ g', markMember rec i k g = (.ok (), g') ∧
      (Marked (OnCycle h0) h g' ∧ SameVis h g') := by
    rintro k g ⟨m, sv⟩
    have : ∃ g', markMember rec i k g = (.ok (), g') := by
      unfold markMember
      cases hk : (g.slice (some i))[k]? with
      | none => exact ⟨_, rfl⟩
      | some kp =>
        obtain ⟨o, g', hr⟩ := htot g m sv kp (List.mem_of_getElem? hk)
        simp only []
        rw [M.bind_of_ok hr]
        cases o <;> exact ⟨_, rfl⟩
    obtain ⟨g', hr⟩ := this
    obtain ⟨m1, sv1, _⟩ := markMember_ok hrec (inv.step m sv) (t.step sv) (hedge g m) hr
    exact ⟨g', hr, m.trans m1 inv.exists, SameVis.trans m sv sv1⟩
  obtain ⟨h', hr, _⟩ := forEach_total hstep (List.range (h.slice (some i)).length) h ⟨.refl _ _, .refl _⟩
  exact ⟨h', hr⟩

theorem markShape_total (hrec : MRec h0 rec) {h : St} {a : Addr} (inv : MInv h0 h) (t : MAt h0 h a)
    (htot : ∀ g, Marked (OnCycle h0) h g → SameVis h g → ∀ y, Refers g a y → ∃ o g', rec y g = (.ok o, g')) :
    ∃ h', markShape rec a (h.shapeAt a) h = (.ok (), h') := by
  cases hs : h.shapeAt a with
  | none => exact ⟨h, rfl⟩
  | some s =>
    cases s
    case array f =>
      simp only [markShape]
      cases hi : f.items with
      | none => exact ⟨h, rfl⟩
      | some i =>
        simp only [whenSome]
        obtain ⟨o, g, hr⟩ := htot h (.refl _ _) (.refl _) i ⟨_, hs, .items hi⟩
        rw [M.bind_of_ok hr]
        cases o <;> exact ⟨_, rfl⟩
    case object f =>
      simp only [markShape]
      have hsg : ∀ g, Marked (OnCycle h0) h g → g.shapeAt a = some (.object f) := fun g m => m.shape hs (by simp)
      have h1 : ∃ g, whenSome f.properties (fun i => markProps rec i) h = (.ok (), g) ∧ Marked (OnCycle h0) h g ∧ SameVis h g := by
        cases hp : f.properties with
        | none => exact ⟨h, rfl, .refl _ _, .refl _⟩
        | some i =>
          have hedge : ∀ g, Marked (OnCycle h0) h g → ∀ p ∈ g.props (some i), MarkEdge g a p.2.base :=
            fun g m p hp' => .refers ⟨_, hsg g m, .property (by rw [hp]; exact hp')⟩
          obtain ⟨g, hr⟩ := markProps_total hrec inv t hedge fun g m sv p hp' =>
            htot g m sv _ ⟨_, hsg g m, .property (by rw [hp]; exact hp')⟩
          obtain ⟨m, sv, _⟩ := markProps_ok hrec inv t hedge hr
          exact ⟨g, hr, m, sv⟩
      obtain ⟨g, e1, m1, sv1⟩ := h1
      rw [M.bind_of_ok e1]
      cases hp : f.patternProperties with
      | none => exact ⟨g, rfl⟩
      | some i =>
        exact markPatProps_total hrec (inv.step m1 sv1) (t.step sv1)
          (fun g' m p hp' => .refers ⟨_, hsg g' (m1.trans m inv.exists), .pattern (by rw [hp]; exact hp')⟩)
          fun g' m sv p hp' => htot g' (m1.trans m inv.exists) (SameVis.trans m1 sv1 sv) _
            ⟨_, hsg g' (m1.trans m inv.exists), .pattern (by rw [hp]; exact hp')⟩
    case union l e =>
      simp only [markShape]
      cases l with
      | none => exact ⟨h, rfl⟩
      | some i =>
        have hsg : ∀ g, Marked (OnCycle h0) h g → g.shapeAt a = some (.union (some i) e) := fun g m => m.shape hs (by simp)
        exact markMembers_total hrec inv t (fun g m p hp' => .refers ⟨_, hsg g m, .member hp'⟩)
          fun g m sv p hp' => htot g m sv _ ⟨_, hsg g m, .member hp'⟩
    all_goals exact ⟨h, rfl⟩

end

theorem mark_total {h0 : St} : ∀ n h a m S, MInv h0 h → MPre h0 h a → ReadySet h S → S a → Left h m →
    (∀ b, h.base a = some b → 2 * m + 1 + (if h.props b.facetDefs = [] then 0 else 1) ≤ n) →
    ∃ o h', mark n a h = (.ok o, h') := by
  intro n
  induction n with
  | zero =>
    intro h a m S inv pre rs ha hl hn
    obtain ⟨b, hb, _⟩ := rs a ha
    exact absurd (hn b hb) (by omega)
  | succ n ih =>
    intro h a m S inv pre rs ha hl hn
    obtain ⟨b, hb, hu, hcl, hfp⟩ := rs a ha
    have hneed := hn b hb
    by_cases hv : b.visited = true
    · obtain ⟨h', L, hr, _⟩ := mark_visited hb hu hv n
      exact ⟨_, h', hr⟩
    · have hv' : b.visited = false := by simpa using hv
      have hva : visitedAt h a = some false := by simp [visitedAt, hb, hv']
      unfold mark
      rw [M.bind_of_ok (show Heap.getBase a h = (.ok b, h) by simp [Heap.getBase, hb])]
      simp only [hu, hv, Bool.not_true, Bool.false_eq_true, if_false]
      rw [M.bind_of_ok (upd_run _ _ _)]
      have mf : Marked (OnCycle h0) h _ := marked_flag a true h
      have hvf := visited_flag a true h
      have hsf : ∀ x, ({ h with bases := h.bases.modify a fun x => { x with visited := true } } : St).shapeAt x = h.shapeAt x := by
        intro x
        unfold St.shapeAt
        rw [base_upd]
        cases h.base x with
        | none => rfl
        | some b => simp only [Option.map_some]; split <;> rfl
      generalize ({ h with bases := h.bases.modify a fun x => { x with visited := true } } : St) = hf at mf hvf hsf
      have hbs : b.shape = hf.shapeAt a := by rw [hsf]; simp [St.shapeAt, hb]
      -- no new types by setting a flag
      have hexf : ∀ x, h.base x = none → hf.base x = none := by
        intro x hx
        cases hfx : hf.base x with
        | none => rfl
        | some y =>
          have : visitedAt hf x = none := by
            rw [hvf, visitedAt_none hx]; simp
          rw [visitedAt, hfx] at this; cases this
      have rec_case : ∀ x, hf.shapeAt a = some (.recursive x) → ∃ h2, markShape (mark n) a b.shape hf = (.ok (), h2) ∧ h2 = hf := by
        intro x hx
        rw [hbs, hx]; exact ⟨hf, rfl, rfl⟩
      -- the state after the components
      have hcomp : ∃ h2, markShape (mark n) a b.shape hf = (.ok (), h2) ∧ Marked (OnCycle h0) hf h2 ∧ SameVis hf h2 := by
        by_cases hrc : ∃ x, hf.shapeAt a = some (.recursive x)
        · obtain ⟨x, hx⟩ := hrc
          obtain ⟨h2, e, rfl⟩ := rec_case x hx
          exact ⟨_, e, .refl _ _, .refl _⟩
        · have hold : h0.base a ≠ none := by
            intro hn0
            obtain ⟨_, _, x, _, hsh⟩ := inv.marked.fresh a b hn0 hb
            exact hrc ⟨x, by rw [← hbs, hsh]⟩
          have tf : MAt h0 hf a := by
            refine ⟨by cases hx : h0.base a with | none => exact absurd hx hold | some _ => rfl, fun z hz => ?_⟩
            rw [hvf] at hz
            by_cases haz : a = z
            · subst haz; exact .refl
            · rw [if_neg haz] at hz
              rcases pre with hn | hp
              · exact absurd hn hold
              · exact (hp z hz).to_reflTransGen
          have invf : MInv h0 hf := by
            refine ⟨inv.marked.trans mf fun x => onCycle_exists, fun y hy => ?_⟩
            have : ¬ a = y := fun e => by subst e; exact hold hy
            rw [hvf, if_neg this]
            exact inv.fresh y hy
          -- one type fewer is left
          have haL : ∃ m', m = m' + 1 ∧ Left hf m' := by
            obtain ⟨L, hL1, hL2⟩ := hl
            have hmem : a ∈ L := hL2 a hva fun y hy => hrc ⟨y, by rw [hsf]; exact hy⟩
            have hlen := List.length_erase_of_mem hmem
            have hpos : 0 < L.length := List.length_pos_of_mem hmem
            refine ⟨m - 1, by omega, L.erase a, by omega, fun x hx hsx => ?_⟩
            rw [hvf] at hx
            by_cases hax : a = x
            · subst hax
              rw [if_pos rfl, hva] at hx; cases hx
            · rw [if_neg hax] at hx
              exact (List.mem_erase_of_ne fun e => hax e.symm).2 (hL2 x hx fun y hy => hsx y (by rw [hsf]; exact hy))
          obtain ⟨m', hm', hlf⟩ := haL
          have rsf : ReadySet hf (Extend h hf S) := rs.marked mf
          have htot : ∀ g, Marked (OnCycle h0) hf g → SameVis hf g → ∀ y, Refers g a y → ∃ o g', mark n y g = (.ok o, g') := by
            intro g mg sg y hy
            have hSa : Extend hf g (Extend h hf S) a := Or.inl (Or.inl ha)
            have rsg := rsf.marked mg
            obtain ⟨_, _, _, hcl', _⟩ := rsg a hSa
            refine ih g y m' _ (invf.step mg sg) ((tf.step sg).pre (invf.step mg sg) (.refers hy)) rsg
              (hcl' y (.refers hy)) (hlf.marked mg sg) fun c _ => ?_
            have : (if g.props c.facetDefs = [] then 0 else 1) ≤ 1 := by split <;> omega
            omega
          rw [hbs]
          obtain ⟨h2, hr⟩ := markShape_total (mark_post n) invf tf htot
          obtain ⟨m2, sv2, _⟩ := markShape_ok (mark_post n) invf tf hr
          exact ⟨h2, hr, m2, sv2⟩
      obtain ⟨h2, e2, m2, sv2⟩ := hcomp
      rw [M.bind_of_ok e2, M.bind_of_ok (upd_run _ _ _)]
      have mu : Marked (OnCycle h0) h2 _ := marked_flag a false h2
      have hvu := visited_flag a false h2
      generalize ({ h2 with bases := h2.bases.modify a fun x => { x with visited := false } } : St) = h3 at mu hvu
      have m3 : Marked (OnCycle h0) h h3 := (mf.trans m2 inv.exists).trans mu inv.exists
      have hexa : hf.base a ≠ none := fun hn => by have := mf.base_none hn; rw [hb] at this; cases this
      have hva2 : visitedAt h2 a = some true := by
        rw [sv2.old a hexa, hvf, if_pos rfl, hva]; rfl
      have sv3 : SameVis h h3 := by
        refine ⟨fun x hx => ?_, fun y hy => ?_⟩
        · rw [hvu]
          by_cases hax : a = x
          · subst hax; rw [if_pos rfl, hva2, hva]; rfl
          · rw [if_neg hax, sv2.old x (fun hn => hx (mf.base_none hn)), hvf, if_neg hax]
        · have hya : ¬ a = y := fun e => by subst e; rw [hb] at hy; cases hy
          rw [hvu, if_neg hya]
          exact sv2.fresh y (hexf y hy)
      have hfac : ∃ h4, whenSome b.facetDefs (fun i => markProps (mark n) i) h3 = (.ok (), h4) := by
        cases hfd : b.facetDefs with
        | none => exact ⟨h3, rfl⟩
        | some i =>
          simp only [whenSome]
          by_cases hemp : h.props (some i) = []
          · refine ⟨h3, ?_⟩
            unfold markProps
            rw [m3.props_nil hemp]; rfl
          · have hold : h0.base a ≠ none := by
              intro hn0
              obtain ⟨_, hf0, _⟩ := inv.marked.fresh a b hn0 hb
              rw [hfd] at hf0
              exact hemp hf0
            rw [hfd, if_neg hemp] at hneed
            have inv3 := inv.step m3 sv3
            have t3 : MAt h0 h3 a := by
              refine ⟨by cases hx : h0.base a with | none => exact absurd hx hold | some _ => rfl, fun z hz => ?_⟩
              rcases pre with hn | hp
              · exact absurd hn hold
              · exact (hp z (sv3.true_back hz)).to_reflTransGen
            have hedge : ∀ g, Marked (OnCycle h0) h3 g → ∀ p ∈ g.props (some i), MarkEdge g a p.2.base := by
              intro g mg p hp
              obtain ⟨s, v, k1, _⟩ := (m3.trans mg inv.exists).old a b hb
              exact .facet k1 (by simp only [hfd]; exact hp)
            refine markProps_total (mark_post n) inv3 t3 hedge fun g mg sg p hp => ?_
            have mg' := m3.trans mg inv.exists
            have sg' := SameVis.trans m3 sv3 sg
            have rsg := rs.marked mg'
            have hSa : Extend h g S a := Or.inl ha
            obtain ⟨bg, hbg, _, hcl', hfp'⟩ := rsg a hSa
            have hbgf : bg.facetDefs = some i := by
              obtain ⟨s, v, k1, _⟩ := mg'.old a b hb
              rw [hbg] at k1
              simp only [Option.some.injEq] at k1
              rw [k1]; exact hfd
            refine ih g _ m _ (inv.step mg' sg') ((t3.step sg).pre (inv3.step mg sg) (hedge g mg p hp)) rsg
              (hcl' _ (hedge g mg p hp)) (hl.marked mg' sg') fun c hc => ?_
            rw [hfp' p (by rw [hbgf]; exact hp) c hc]
            simp only [if_true]
            omega
      obtain ⟨h4, e4⟩ := hfac
      rw [M.bind_of_ok e4]
      exact ⟨_, _, rfl⟩

end GoRaml
