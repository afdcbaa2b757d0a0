import Verif.Lemmas.WholeEnds
import Verif.Spec.Schema

/-!
# The heads of the recursive references that marking makes

Each of them ends up without infinite chains of components, unless it was marked as visited before marking started.
-/

namespace GoRaml.Whole

open GoRaml GoRaml.Spec GoRaml.Load

/-- The heads of the recursive references made between `h` and `h'` are still visited, or are finite. -/
def NewHeads (h h' : St) : Prop := ∀ y x, h.base y = none → h'.shapeAt y = some (.recursive x) → visitedAt h' x = some true ∨ Fin h' x

theorem NewHeads.same {h h' : St} (hs : ∀ y, h'.base y ≠ none → h.base y ≠ none) : NewHeads h h' := fun y x hy hx => by
  obtain ⟨b, hb, _⟩ := base_of_shape hx
  exact absurd hy (hs y (by rw [hb]; simp))

theorem NewHeads.refl (h : St) : NewHeads h h := .same fun _ h => h

/-- Marking does not make an existing type recursive. -/
theorem marked_recursive {C : Addr → Prop} {h h' : St} (mk : Marked C h h') {x y : Addr} (hy : h.base y ≠ none) (hx : h'.shapeAt y = some (.recursive x)) :
    h.shapeAt y = some (.recursive x) := by
  cases hb : h.base y with
  | none => exact absurd hb hy
  | some b =>
    obtain ⟨sh, v, k1, k2⟩ := mk.old y b hb
    unfold St.shapeAt at hx ⊢
    rw [k1] at hx
    rw [hb]
    simp only [Option.bind_some] at hx ⊢
    subst hx
    generalize hbs : b.shape = bs at k2
    cases k2 with
    | same => rfl

theorem visited_exists {h : St} {x : Addr} {v : Bool} (hv : visitedAt h x = some v) : h.base x ≠ none := fun hn => by
  rw [visitedAt_none hn] at hv; cases hv

theorem NewHeads.trans {C C' : Addr → Prop} {h h1 h2 : St} (n : NewHeads h h1) (n' : NewHeads h1 h2) (mk : Marked C' h1 h2) (sv : SameVis h1 h2) : NewHeads h h2 := by
  intro y x hy hx
  by_cases h1y : h1.base y = none
  · exact n' y x h1y hx
  · rcases n y x hy (marked_recursive mk h1y hx) with hv | hf
    · exact .inl (by rw [sv.old x (visited_exists hv)]; exact hv)
    · exact .inr (hf.marked mk)

section
variable {h0 : St}

/-- What the recursive call leaves behind. -/
structure HPost (h h' : St) (o : Option Addr) : Prop where
  heads : NewHeads h h'
  visited : o.isSome → ∀ y x, h.base y = none → h'.shapeAt y = some (.recursive x) → visitedAt h' x = some true

/-- What the recursive call does. -/
def HeadRec (h0 : St) (rec : Addr → M St (Option Addr)) : Prop := ∀ h a o h', MInv h0 h → rec a h = (.ok o, h') → HPost h h' o

/-- The bases are the same. -/
theorem HPost.bases {h h' h'' : St} {r : Addr} (p : HPost h h' (some r)) (e : h''.bases = h'.bases) : NewHeads h h'' := fun y x hy hx => by
  have hs : h''.shapeAt y = h'.shapeAt y := by simp only [St.shapeAt, St.base, e]
  have hv : visitedAt h'' x = visitedAt h' x := by simp only [visitedAt, St.base, e]
  exact .inl (hv ▸ p.visited rfl y x hy (hs ▸ hx))

variable {rec : Addr → M St (Option Addr)} (hm : MarkRec h0 rec) (hrec : HeadRec h0 rec)
include hrec

theorem markProp_heads {g g' : St} {i k : Nat} (inv : MInv h0 g) (hr : markProp rec i k g = (.ok (), g')) : NewHeads g g' := by
  unfold markProp at hr
  cases hk : (g.props (some i))[k]? with
  | none =>
    simp only [hk, Prod.mk.injEq, true_and] at hr
    subst hr
    exact .refl _
  | some kp =>
    simp only [hk] at hr
    obtain ⟨rs, g1, e1, e2⟩ := M.bind_ok.1 hr
    have hp := hrec g _ rs g1 inv e1
    cases rs with
    | none => obtain ⟨_, rfl⟩ := M.ret_ok.1 e2; exact hp.heads
    | some r =>
      simp only [whenSome, Heap.setPropAt, Prod.mk.injEq, true_and] at e2
      subst e2
      exact hp.bases rfl

theorem markPatProp_heads {g g' : St} {i k : Nat} (inv : MInv h0 g) (hr : markPatProp rec i k g = (.ok (), g')) : NewHeads g g' := by
  unfold markPatProp at hr
  cases hk : (g.patProps (some i))[k]? with
  | none =>
    simp only [hk, Prod.mk.injEq, true_and] at hr
    subst hr
    exact .refl _
  | some kp =>
    simp only [hk] at hr
    obtain ⟨rs, g1, e1, e2⟩ := M.bind_ok.1 hr
    have hp := hrec g _ rs g1 inv e1
    cases rs with
    | none => obtain ⟨_, rfl⟩ := M.ret_ok.1 e2; exact hp.heads
    | some r =>
      simp only [whenSome, Heap.setPatPropAt, Prod.mk.injEq, true_and] at e2
      subst e2
      exact hp.bases rfl

theorem markMember_heads {g g' : St} {i k : Nat} (inv : MInv h0 g) (hr : markMember rec i k g = (.ok (), g')) : NewHeads g g' := by
  unfold markMember at hr
  cases hk : (g.slice (some i))[k]? with
  | none =>
    simp only [hk, Prod.mk.injEq, true_and] at hr
    subst hr
    exact .refl _
  | some kp =>
    simp only [hk] at hr
    obtain ⟨rs, g1, e1, e2⟩ := M.bind_ok.1 hr
    have hp := hrec g _ rs g1 inv e1
    cases rs with
    | none => obtain ⟨_, rfl⟩ := M.ret_ok.1 e2; exact hp.heads
    | some r =>
      simp only [whenSome, Heap.setSliceAt, Prod.mk.injEq, true_and] at e2
      subst e2
      exact hp.bases rfl

include hm

theorem markProps_heads {h h' : St} {i : Nat} (inv : MInv h0 h) (hr : markProps rec i h = (.ok (), h')) : NewHeads h h' := by
  have := forEach_post (I := fun g => Marked (There h0) h g ∧ SameVis h g ∧ NewHeads h g) (Q := fun _ _ => True) ?_ _ h h' ⟨.refl _ _, .refl _, .refl _⟩ hr
  · exact this.1.2.2
  · rintro k g g' ⟨m, sv, nh⟩ hrun
    have inv' := inv.step m sv
    obtain ⟨m1, sv1, _⟩ := markProp_ends hm inv' hrun
    exact ⟨⟨m.trans m1 inv.exists, SameVis.trans m sv sv1, nh.trans (C := There h0) (markProp_heads hrec inv' hrun) m1 sv1⟩, trivial, fun _ _ => trivial⟩

theorem markPatProps_heads {h h' : St} {i : Nat} (inv : MInv h0 h) (hr : markPatProps rec i h = (.ok (), h')) : NewHeads h h' := by
  have := forEach_post (I := fun g => Marked (There h0) h g ∧ SameVis h g ∧ NewHeads h g) (Q := fun _ _ => True) ?_ _ h h' ⟨.refl _ _, .refl _, .refl _⟩ hr
  · exact this.1.2.2
  · rintro k g g' ⟨m, sv, nh⟩ hrun
    have inv' := inv.step m sv
    obtain ⟨m1, sv1, _⟩ := markPatProp_ends hm inv' hrun
    exact ⟨⟨m.trans m1 inv.exists, SameVis.trans m sv sv1, nh.trans (C := There h0) (markPatProp_heads hrec inv' hrun) m1 sv1⟩, trivial, fun _ _ => trivial⟩

theorem markMembers_heads {h h' : St} {i : Nat} (inv : MInv h0 h) (hr : markMembers rec i h = (.ok (), h')) : NewHeads h h' := by
  have := forEach_post (I := fun g => Marked (There h0) h g ∧ SameVis h g ∧ NewHeads h g) (Q := fun _ _ => True) ?_ _ h h' ⟨.refl _ _, .refl _, .refl _⟩ hr
  · exact this.1.2.2
  · rintro k g g' ⟨m, sv, nh⟩ hrun
    have inv' := inv.step m sv
    obtain ⟨m1, sv1, _⟩ := markMember_ends hm inv' hrun
    exact ⟨⟨m.trans m1 inv.exists, SameVis.trans m sv sv1, nh.trans (C := There h0) (markMember_heads hrec inv' hrun) m1 sv1⟩, trivial, fun _ _ => trivial⟩

theorem markShape_heads {h h' : St} {a : Addr} (inv : MInv h0 h) (hr : markShape rec a (h.shapeAt a) h = (.ok (), h')) : NewHeads h h' := by
  generalize hs : h.shapeAt a = s at hr
  unfold markShape at hr
  split at hr
  · rename_i f
    cases hi : f.items with
    | none => rw [hi] at hr; obtain ⟨_, rfl⟩ := M.ret_ok.1 hr; exact .refl _
    | some i =>
      rw [hi] at hr
      simp only [whenSome] at hr
      obtain ⟨rs, g, e1, e2⟩ := M.bind_ok.1 hr
      have hp := hrec h i rs g inv e1
      cases rs with
      | none => obtain ⟨_, rfl⟩ := M.ret_ok.1 e2; exact hp.heads
      | some r =>
        have hpm := hm h i _ g inv e1
        obtain ⟨c1, c2, c3⟩ := hpm.made r rfl
        obtain ⟨h'', e3, mk, hv, hsa, hso⟩ := marked_setArray hpm.marked hs hi (r := r) (Or.inr ⟨c1, c2, c3⟩)
        simp only at e2
        rw [e3] at e2
        simp only [Prod.mk.injEq, true_and] at e2
        subst e2
        intro y x hy hx
        have hya : y ≠ a := fun e => by
          subst e
          obtain ⟨b, hb, _⟩ := base_of_shape hs
          rw [hb] at hy; cases hy
        exact .inl (by rw [hv]; exact hp.visited rfl y x hy (by rw [← hso y hya]; exact hx))
  · rename_i f
    obtain ⟨_, g, e1, e2⟩ := M.bind_ok.1 hr
    have h1 : Marked (There h0) h g ∧ SameVis h g ∧ NewHeads h g := by
      cases hp : f.properties with
      | none => rw [hp] at e1; obtain ⟨_, rfl⟩ := M.ret_ok.1 e1; exact ⟨.refl _ _, .refl _, .refl _⟩
      | some i =>
        rw [hp] at e1
        obtain ⟨q1, q2, _⟩ := markProps_ends hm inv e1
        exact ⟨q1, q2, markProps_heads hm hrec inv e1⟩
    obtain ⟨m1, sv1, n1⟩ := h1
    have inv1 := inv.step m1 sv1
    cases hp : f.patternProperties with
    | none => rw [hp] at e2; obtain ⟨_, rfl⟩ := M.ret_ok.1 e2; exact n1
    | some i =>
      rw [hp] at e2
      obtain ⟨q1, q2, _⟩ := markPatProps_ends hm inv1 e2
      exact n1.trans (C := There h0) (markPatProps_heads hm hrec inv1 e2) q1 q2
  · rename_i l e
    cases l with
    | none => obtain ⟨_, rfl⟩ := M.ret_ok.1 hr; exact .refl _
    | some i => exact markMembers_heads hm hrec inv hr
  · obtain ⟨_, rfl⟩ := M.ret_ok.1 hr; exact .refl _

end

theorem mark_heads {h0 : St} : ∀ n, HeadRec h0 (mark n) := by
  intro n
  induction n with
  | zero => intro h a o h' _ hr; simp [mark, M.diverge] at hr
  | succ n ih =>
    intro h a o h' inv hr
    have hr0 := hr
    have post := mark_ends (h0 := h0) (n + 1) h a o h' inv hr
    unfold mark at hr
    obtain ⟨b, h1, e1, hr1⟩ := M.bind_ok.1 hr
    obtain ⟨hb, he1⟩ := getBase_ok.1 e1
    rw [he1] at hr1
    by_cases hu : b.unwrapped = true
    · simp only [hu, Bool.not_true, Bool.false_eq_true, if_false] at hr1
      by_cases hv : b.visited = true
      · have hva : visitedAt h a = some true := by simp [visitedAt, hb, hv]
        obtain ⟨h2, L, hrun, k1, k2, k3, k4, k5, k6, k7, k8⟩ := mark_visited hb hu hv n
        rw [hrun] at hr0
        simp only [Prod.mk.injEq, Out.ok.injEq] at hr0
        obtain ⟨rfl, rfl⟩ := hr0
        have key : ∀ y x, h.base y = none → h2.shapeAt y = some (.recursive x) → visitedAt h2 x = some true := by
          intro y x hy hx
          have : x = a := by
            unfold St.shapeAt St.base at hx
            unfold St.base at hy
            rw [k1, List.getElem?_append_right (List.getElem?_eq_none_iff.1 hy), List.getElem?_singleton] at hx
            split at hx
            · simp only [Option.bind_some, k5, Option.some.injEq, Shape.recursive.injEq] at hx
              exact hx.symm
            · cases hx
          subst this
          rw [post.vis.old x (visited_exists hva)]
          exact hva
        exact ⟨fun y x hy hx => .inl (key y x hy hx), fun _ => key⟩
      · simp only [hv, Bool.false_eq_true, if_false] at hr1
        have hv' : b.visited = false := by simpa using hv
        have hva : visitedAt h a = some false := by simp [visitedAt, hb, hv']
        rw [M.bind_of_ok (upd_run _ _ _)] at hr1
        have mf : Marked (There h0) h _ := marked_flag a true h
        have hvf := visited_flag a true h
        have hsf : ∀ x, ({ h with bases := h.bases.modify a fun x => { x with visited := true } } : St).shapeAt x = h.shapeAt x := by
          intro x
          unfold St.shapeAt
          rw [base_upd]
          cases h.base x with
          | none => rfl
          | some b => simp only [Option.map_some]; split <;> rfl
        generalize ({ h with bases := h.bases.modify a fun x => { x with visited := true } } : St) = hf at hr1 mf hvf hsf
        obtain ⟨_, h2, e2, hr2⟩ := M.bind_ok.1 hr1
        rw [M.bind_of_ok (upd_run _ _ _)] at hr2
        have mu : Marked (There h0) h2 _ := marked_flag a false h2
        have hvu := visited_flag a false h2
        generalize ({ h2 with bases := h2.bases.modify a fun x => { x with visited := false } } : St) = h3 at hr2 mu hvu
        obtain ⟨_, h4, e3, hr3⟩ := M.bind_ok.1 hr2
        obtain ⟨ho, hh'⟩ := M.ret_ok.1 hr3
        subst ho hh'
        have hbs : b.shape = hf.shapeAt a := by rw [hsf]; simp [St.shapeAt, hb]
        rw [hbs] at e2
        have h2post : Marked (There h0) hf h2 ∧ SameVis hf h2 ∧ NewHeads hf h2 := by
          by_cases hold : h0.base a = none
          · obtain ⟨_, f2, x, _, f4⟩ := inv.marked.fresh a b hold hb
            have hrec : hf.shapeAt a = some (.recursive x) := by rw [← hbs, f4]
            rw [hrec] at e2
            obtain ⟨_, e⟩ := M.ret_ok.1 e2
            subst e
            exact ⟨.refl _ _, .refl _, .refl _⟩
          · have invf : MInv h0 hf := ⟨inv.marked.trans mf fun x h => h, fun y hy => by
              have : ¬ a = y := fun e => by subst e; exact hold hy
              rw [hvf, if_neg this]
              exact inv.fresh y hy⟩
            obtain ⟨q1, q2, _⟩ := markShape_ends (mark_ends n) invf e2
            exact ⟨q1, q2, markShape_heads (mark_ends n) ih invf e2⟩
        obtain ⟨m2, sv2, n2⟩ := h2post
        have hva2 : visitedAt h2 a = some true := by
          have hex : hf.base a ≠ none := fun hn => by
            have := mf.base_none hn; rw [hb] at this; cases this
          rw [sv2.old a hex, hvf, if_pos rfl, hva]; rfl
        have m3 : Marked (There h0) h h3 := (mf.trans m2 inv.exists).trans mu inv.exists
        have hexf : ∀ x, h.base x = none → hf.base x = none := by
          intro x hx
          cases hfx : hf.base x with
          | none => rfl
          | some y =>
            have : visitedAt hf x = none := by
              rw [hvf, visitedAt_none hx]; simp
            rw [visitedAt, hfx] at this; cases this
        have sv3 : SameVis h h3 := by
          refine ⟨fun x hx => ?_, fun y hy => ?_⟩
          · rw [hvu]
            by_cases hax : a = x
            · subst hax; rw [if_pos rfl, hva2, hva]; rfl
            · rw [if_neg hax, sv2.old x (fun hn => hx (mf.base_none hn)), hvf, if_neg hax]
          · have hya : ¬ a = y := fun e => by subst e; rw [hb] at hy; cases hy
            rw [hvu, if_neg hya]
            exact sv2.fresh y (hexf y hy)
        have inv3 := inv.step m3 sv3
        have h34 : Marked (There h0) h3 h4 ∧ SameVis h3 h4 ∧ NewHeads h3 h4 := by
          cases hfd : b.facetDefs with
          | none =>
            rw [hfd] at e3
            obtain ⟨_, e⟩ := M.ret_ok.1 e3
            subst e
            exact ⟨.refl _ _, .refl _, .refl _⟩
          | some i =>
            rw [hfd] at e3
            obtain ⟨q1, q2, _⟩ := markProps_ends (mark_ends n) inv3 e3
            exact ⟨q1, q2, markProps_heads (mark_ends n) ih inv3 e3⟩
        obtain ⟨m4, sv4, n4⟩ := h34
        have hex2 : ∀ x, There h0 x → (h2.base x).isSome := fun x hx => by
          have hx := inv.exists x hx
          cases hbx : h.base x with
          | none => rw [hbx] at hx; cases hx
          | some bx =>
            obtain ⟨_, _, q, _⟩ := (mf.trans m2 inv.exists).old x bx hbx
            rw [q]; rfl
        have m24 : Marked (There h0) h2 h4 := mu.trans m4 hex2
        refine ⟨fun y x hy hx => ?_, fun h => by cases h⟩
        by_cases h3y : h3.base y = none
        · exact n4 y x h3y hx
        · have hx3 := marked_recursive m4 h3y hx
          have h2y : h2.base y ≠ none := fun hn => by
            have : visitedAt h3 y = none := by rw [hvu, visitedAt_none hn]; simp
            cases hb3 : h3.base y with
            | none => exact h3y hb3
            | some b3 => rw [visitedAt, hb3] at this; cases this
          rcases n2 y x (hexf y hy) (marked_recursive mu h2y hx3) with hv2 | hf2
          · by_cases hax : a = x
            · exact .inr (hax ▸ post.fin rfl)
            · left
              have hv3 : visitedAt h3 x = some true := by rw [hvu, if_neg hax]; exact hv2
              rw [sv4.old x (visited_exists hv3)]
              exact hv3
          · exact .inr (hf2.marked m24)
    · simp only [hu, Bool.not_false, if_true] at hr1
      cases hr1

/-! ## The loops over the fragments -/

section
variable {K : Par}

theorem Looping.visited {h0 h h' : St} (l : Looping K h0 h) (l' : Looping K h0 h') {x : Addr} (hv : visitedAt h x = some true) : visitedAt h' x = some true := by
  have hx : h0.base x ≠ none := fun hn => l.inv.fresh x hn hv
  rw [l'.vis.old x hx, ← l.vis.old x hx]
  exact hv

theorem NewHeads.loop {h0 h h1 h2 : St} (l1 : Looping K h0 h1) (l2 : Looping K h0 h2) (mk : Marked (There h0) h1 h2) (n : NewHeads h h1) (n' : NewHeads h1 h2) : NewHeads h h2 := by
  intro y x hy hx
  by_cases h1y : h1.base y = none
  · exact n' y x h1y hx
  · exact (n y x hy (marked_recursive mk h1y hx)).imp (l1.visited l2) fun hf => hf.marked mk

variable [K.Rec]

theorem types_heads {h0 : St} {n : Nat} : ∀ (l : List (String × Addr)) (h h' : St), Looping K h0 h → (∀ e ∈ l, IsBase h0 e.2) →
    M.forEach (fun ka : String × Addr => M.bind (GoRaml.mark n ka.2) fun _ => M.ret ()) l h = (.ok (), h') → NewHeads h h'
  | [], h, h', lp, _, hr => by cases hr; exact .refl _
  | e :: l, h, h', lp, hl, hr => by
    unfold M.forEach at hr
    obtain ⟨_, h1, e1, e2⟩ := M.bind_ok.1 hr
    obtain ⟨o, h2, e3, e4⟩ := M.bind_ok.1 e1
    cases e4
    obtain ⟨l1, m1, _⟩ := lp.mark (hl e (by simp)) e3
    obtain ⟨l2, m2, _⟩ := Looping.types l h1 h' l1 (fun e' he' => hl e' (by simp [he'])) e2
    exact .loop l1 l2 m2 (mark_heads n h e.2 o h1 lp.inv e3).heads (types_heads l h1 h' l1 (fun e' he' => hl e' (by simp [he'])) e2)

theorem fragment_heads {h0 : St} {n : Nat} {f : FragRef} {h h' : St} (lp : Looping K h0 h) (hw : Wf K h0) (hf : FragThere h0 f)
    (hr : markFragment n f h = (.ok (), h')) : NewHeads h h' := by
  cases f with
  | library i =>
    have hl : h0.libs[i]? = some _ := List.getElem?_eq_getElem hf
    simp only [markFragment, lp.bigger.libs, hl] at hr
    have hin := hw.lib _ (List.getElem_mem hf)
    exact types_heads _ _ _ lp (fun e he => by
      rcases List.mem_append.1 he with h | h
      · exact hin.annotationTypes _ h
      · exact hin.types _ h) hr
  | dataType i =>
    have hl : h0.dts[i]? = some _ := List.getElem?_eq_getElem hf
    have hl' : h.dts[i]? = some h0.dts[i] := by
      obtain ⟨t, e⟩ := lp.bigger.dts
      rw [← e, List.getElem?_append_left hf]; exact hl
    obtain ⟨a, ha, hb⟩ := (hw.dt _ (List.getElem_mem hf)).shape
    simp only [markFragment, hl', Option.bind_some, ha] at hr
    obtain ⟨o, h2, e3, e4⟩ := M.bind_ok.1 hr
    cases e4
    exact (mark_heads n h a o h' lp.inv e3).heads
  | namedExample i =>
    cases hr
    exact .refl _

theorem fragments_heads {h0 : St} {n : Nat} (hw : Wf K h0) : ∀ (fs : List FragRef) (h h' : St), Looping K h0 h → (∀ f ∈ fs, FragThere h0 f) →
    markFragments n fs h = (.ok (), h') → NewHeads h h'
  | [], h, h', lp, _, hr => by cases hr; exact .refl _
  | f :: fs, h, h', lp, hf, hr => by
    unfold markFragments M.forEach at hr
    obtain ⟨_, h1, e1, e2⟩ := M.bind_ok.1 hr
    obtain ⟨l1, m1, _⟩ := lp.fragment hw (hf f (by simp)) e1
    obtain ⟨l2, m2, _⟩ := Looping.fragments hw fs h1 h' l1 (fun e' he' => hf e' (by simp [he'])) e2
    exact .loop l1 l2 m2 (fragment_heads lp hw (hf f (by simp)) e1) (fragments_heads hw fs h1 h' l1 (fun e' he' => hf e' (by simp [he'])) e2)

end

/-! ## The whole -/

/-- Values and panics are as for `K`, but there are no recursive types. -/
def Par.plain (K : Par) : Par := { K with R := False }

theorem Wf.noRecursive {K : Par} {s : St} (hw : Wf K.plain s) (a y : Addr) : s.shapeAt a ≠ some (.recursive y) := fun h => by
  obtain ⟨b, hb, hbs⟩ := base_of_shape h
  obtain ⟨sh, h1, h2⟩ := (hw.base a b hb).shape
  rw [hbs] at h1
  cases h1
  exact h2

/-- What marking leaves: the heads of recursive references are marked as visited or finite. -/
def HeadsEnd (h : St) : Prop := ∀ y x, h.shapeAt y = some (.recursive x) → LeftVisited h x ∨ Fin h x

theorem Fin.edge {h : St} {x y : Addr} (f : Fin h x) (e : MarkEdge h x y) : Fin h y := by
  cases f with
  | intro _ _ h => exact h y e

theorem Fin.reach {h : St} (hh : HeadsEnd h) {a y : Addr} (hr : SchemaReach h a y) : Fin h a → (∀ z, SchemaReach h a z → ¬ LeftVisited h z) → Fin h y := by
  induction hr with
  | refl a => exact fun f _ => f
  | component hc _ ih => exact fun f hv => ih (f.edge (component_edge hc)) fun z hz => hv z (.component hc hz)
  | head hs _ ih =>
    intro f hv
    refine ih ?_ fun z hz => hv z (.head hs hz)
    exact (hh _ _ hs).resolve_left (hv _ (.head hs (.refl _)))

theorem unwrapShapes_heads {K : Par} [K.Rec] {s s' : St} {n : Nat} {fs fs' : List FragRef} (hw : Wf K.plain (cleared s)) (hwr : Wf K (cleared s))
    (hf : ∀ f ∈ fs, FragThere (cleared s) f)
    (hf' : ∀ f ∈ fs', FragThere (cleared s) f) (hall : ∀ e ∈ s.fragments, e.2 ∈ fs') (hx : ∀ d ∈ s.domainExts, ∃ a, d.definedBy = some a)
    (hr : unwrapShapes n fs fs' s = (.ok (), s')) : HeadsEnd s' ∧ ∀ a, DeclaredType s' a → LeftVisited s' a ∨ Fin s' a := by
  unfold unwrapShapes at hr
  obtain ⟨_, s0, e0, hr⟩ := M.bind_ok.1 hr
  cases e0
  have hr : (M.bind (unwrapFragments n fs) fun _ => M.bind (markFragments n fs') fun _ => unwrapDomainExtensions) (cleared s) = (.ok (), s') := hr
  obtain ⟨_, s1, e1, hr⟩ := M.bind_ok.1 hr
  obtain ⟨_, s2, e2, hr⟩ := M.bind_ok.1 hr
  have r0 := unwrapFragments_sound (n := n) hw hf
  have r1 := unwrapFragments_sound (n := n) hwr hf
  unfold Sound Safe at r0 r1
  rw [e1] at r0 r1
  obtain ⟨w1, k1, _⟩ := r1
  have hf1 : ∀ f ∈ fs', FragThere s1 f := fun f h => (hf' f h).kept k1
  obtain ⟨lp, mk, ends⟩ := Looping.fragments w1 fs' s1 s2 (.refl w1) hf1 e2
  have heads := fragments_heads w1 fs' s1 s2 (.refl w1) hf1 e2
  have hexts : s2.domainExts = s.domainExts := lp.bigger.exts.trans k1.exts
  have hrun := unwrapDomainExtensions_run (s := s2) fun d hd' => by
    obtain ⟨a, ha⟩ := hx d (hexts ▸ hd')
    obtain ⟨b, hb⟩ := isBase_base (lp.wf.exts d hd' a ha)
    exact ⟨a, b, ha, hb⟩
  rw [hr] at hrun
  obtain ⟨_, _, _, e', p3, _⟩ := hrun
  simp only at p3
  subst p3
  have left : ∀ x, visitedAt s2 x = some true → LeftVisited { s2 with domainExts := e' } x := fun x hv => by
    unfold visitedAt at hv
    obtain ⟨b', h3, h4⟩ := Option.map_eq_some_iff.1 hv
    exact ⟨b', h3, h4⟩
  have hfr : s2.fragments = s.fragments := lp.bigger.fragments.trans k1.fragments
  refine ⟨fun y x hyx => ?_, fun a ha => ?_⟩
  · have hyx : s2.shapeAt y = some (.recursive x) := hyx
    by_cases h1y : s1.base y = none
    · exact (heads y x h1y hyx).imp (left x) fun f => f.exts e'
    · exact absurd (marked_recursive mk h1y hyx) (r0.1.noRecursive y x)
  · obtain ⟨k, f, h1, h2⟩ := declared_typesOf ha
    have hin : f ∈ fs' := hall (k, f) (by rw [← hfr]; exact h1)
    have h2' : a ∈ typesOf s2 f := h2
    rw [typesOf_bigger lp.bigger (hf1 f hin)] at h2'
    obtain ⟨⟨b, hb, _⟩, hv⟩ := ends f hin a h2'
    refine hv.imp (fun hv => left a ?_) fun f => f.exts e'
    rw [lp.vis.old a (visited_exists hv)]
    exact hv

end GoRaml.Whole
