import Verif.Lemmas.Inherit
import Verif.Spec.Inherit

/-! Heaps that agree on the cells of a type give that type the same parts and the same values. -/

namespace GoRaml

open Spec

/-- The two heaps agree, up to descriptions, custom facets and visited flags, on the cells in `S`. -/
structure Agree (S : Loc → Prop) (h h' : St) : Prop where
  bases : ∀ x, S (.base x) → (h'.base x).map Base.core = (h.base x).map Base.core
  props : ∀ i, S (.props i) → h'.pmaps[i]? = h.pmaps[i]?
  patProps : ∀ i, S (.patProps i) → h'.ppmaps[i]? = h.ppmaps[i]?
  slices : h'.slices = h.slices

theorem Agree.refl (S : Loc → Prop) (h : St) : Agree S h h := ⟨fun _ _ => rfl, fun _ _ => rfl, fun _ _ => rfl, rfl⟩

theorem Agree.trans {S : Loc → Prop} {a b c : St} (h1 : Agree S a b) (h2 : Agree S b c) : Agree S a c :=
  ⟨fun x hx => (h2.bases x hx).trans (h1.bases x hx), fun i hi => (h2.props i hi).trans (h1.props i hi),
    fun i hi => (h2.patProps i hi).trans (h1.patProps i hi), h2.slices.trans h1.slices⟩

theorem Agree.symm {S : Loc → Prop} {a b : St} (h1 : Agree S a b) : Agree S b a :=
  ⟨fun x hx => (h1.bases x hx).symm, fun i hi => (h1.props i hi).symm, fun i hi => (h1.patProps i hi).symm,
    h1.slices.symm⟩

theorem Agree.mono {S T : Loc → Prop} {a b : St} (h1 : Agree S a b) (hT : ∀ l, T l → S l) : Agree T a b :=
  ⟨fun x hx => h1.bases x (hT _ hx), fun i hi => h1.props i (hT _ hi), fun i hi => h1.patProps i (hT _ hi), h1.slices⟩

theorem Cosmetic.agree {h h' : St} (c : Cosmetic h h') (S : Loc → Prop) : Agree S h h' :=
  ⟨fun x _ => c.bases x, fun i _ => by rw [c.pmaps], fun i _ => by rw [c.ppmaps], c.slices⟩

theorem Agree.shapeAt {S : Loc → Prop} {h h' : St} (c : Agree S h h') {x : Addr} (hx : S (.base x)) :
    h'.shapeAt x = h.shapeAt x := by
  have := c.bases x hx
  unfold St.shapeAt
  cases h1 : h.base x <;> cases h2 : h'.base x <;> simp [h1, h2] at this ⊢
  have := congrArg Base.shape this
  simpa [Base.core] using this

theorem Agree.props_eq {S : Loc → Prop} {h h' : St} (c : Agree S h h') {p : Option Nat}
    (hp : ∀ i, p = some i → S (.props i)) : h'.props p = h.props p := by
  cases p with
  | none => rfl
  | some i => simp only [St.props]; rw [c.props i (hp i rfl)]

theorem Agree.patProps_eq {S : Loc → Prop} {h h' : St} (c : Agree S h h') {p : Option Nat}
    (hp : ∀ i, p = some i → S (.patProps i)) : h'.patProps p = h.patProps p := by
  cases p with
  | none => rfl
  | some i => simp only [St.patProps]; rw [c.patProps i (hp i rfl)]

theorem Agree.slice_eq {S : Loc → Prop} {h h' : St} (c : Agree S h h') (p : Option Nat) : h'.slice p = h.slice p := by
  unfold St.slice; rw [c.slices]

theorem ShapeEdge.part {h : St} {a y : Addr} {s : Shape} (hs : h.shapeAt a = some s) (he : ShapeEdge h s y) {l : Loc}
    (hl : Part h y l) : Part h a l := .sub hs he hl

theorem Agree.edge {h h' : St} {a : Addr} (c : Agree (Part h a) h h') {s : Shape} (hs : h.shapeAt a = some s) (y : Addr) :
    ShapeEdge h' s y ↔ ShapeEdge h s y := by
  constructor
  · intro he
    cases he with
    | items h1 => exact .items h1
    | property h1 =>
      refine .property ?_
      rwa [c.props_eq (fun i hi => .props hs hi)] at h1
    | pattern h1 =>
      refine .pattern ?_
      rwa [c.patProps_eq (fun i hi => .patProps hs hi)] at h1
    | member h1 => refine .member ?_; rwa [c.slice_eq] at h1
  · intro he
    cases he with
    | items h1 => exact .items h1
    | property h1 =>
      refine .property ?_
      rwa [c.props_eq (fun i hi => .props hs hi)]
    | pattern h1 =>
      refine .pattern ?_
      rwa [c.patProps_eq (fun i hi => .patProps hs hi)]
    | member h1 => refine .member ?_; rwa [c.slice_eq]

theorem part_of_agree {h h' : St} {a : Addr} (c : Agree (Part h a) h h') (l : Loc) : Part h' a l ↔ Part h a l := by
  constructor
  · intro hp
    induction hp with
    | self a => exact .self a
    | props h1 h2 => rw [c.shapeAt (.self _)] at h1; exact .props h1 h2
    | patProps h1 h2 => rw [c.shapeAt (.self _)] at h1; exact .patProps h1 h2
    | sub h1 h2 _ ih =>
      rw [c.shapeAt (.self _)] at h1
      rw [c.edge h1] at h2
      exact .sub h1 h2 (ih (c.mono fun l hl => .sub h1 h2 hl))
    | head h1 _ ih =>
      rw [c.shapeAt (.self _)] at h1
      exact .head h1 (ih (c.mono fun l hl => .head h1 hl))
  · intro hp
    induction hp with
    | self a => exact .self a
    | props h1 h2 => exact .props (by rw [c.shapeAt (.self _)]; exact h1) h2
    | patProps h1 h2 => exact .patProps (by rw [c.shapeAt (.self _)]; exact h1) h2
    | sub h1 h2 _ ih =>
      exact .sub (by rw [c.shapeAt (.self _)]; exact h1) ((c.edge h1 _).2 h2)
        (ih (c.mono fun l hl => .sub h1 h2 hl))
    | head h1 _ ih =>
      exact .head (by rw [c.shapeAt (.self _)]; exact h1) (ih (c.mono fun l hl => .head h1 hl))

theorem Spec.Part.trans {h : St} {a b : Addr} {l : Loc} (h1 : Part h a (.base b)) (h2 : Part h b l) : Part h a l := by
  generalize hl : Loc.base b = l1 at h1
  induction h1 with
  | self a => cases hl; exact h2
  | props => cases hl
  | patProps => cases hl
  | sub h3 h4 _ ih => exact .sub h3 h4 (ih hl)
  | head h3 _ ih => exact .head h3 (ih hl)

/-- A step of membership only looks at cells of the type. -/
theorem step_agree {E : Ext} {h h' : St} {a : Addr} (c : Agree (Part h a) h h') {P Q : Addr → GoVal → Prop}
    (hPQ : ∀ y v, (∀ l, Part h y l → Part h a l) → P y v → Q y v) {v : GoVal} (hs : Step E h P a v) : Step E h' Q a v := by
  unfold Step at hs ⊢
  rw [c.shapeAt (.self _)]
  cases hsh : h.shapeAt a with
  | none => simp [hsh] at hs
  | some s =>
    rw [hsh] at hs
    cases s with
    | array f =>
      simp only at hs ⊢
      obtain ⟨l, h1, h2, h3, h4⟩ := hs
      exact ⟨l, h1, h2, fun b hb x hx => hPQ _ _ (fun l hl => .sub hsh (.items hb) hl) (h3 b hb x hx), h4⟩
    | object f =>
      simp only at hs ⊢
      obtain ⟨m, h1, h2, h3, h4, h5⟩ := hs
      have e1 : h'.props f.properties = h.props f.properties := c.props_eq (fun i hi => .props hsh hi)
      have e2 : h'.patProps f.patternProperties = h.patProps f.patternProperties :=
        c.patProps_eq (fun i hi => .patProps hsh hi)
      unfold ObjectOK
      rw [e1, e2]
      refine ⟨m, h1, h2, h3, fun k x p hk hd => hPQ _ _ (fun l hl => ?_) (h4 k x p hk hd), fun k x hk hd => ?_⟩
      · obtain ⟨pre, post, h6, _⟩ := hd
        have hmem : (k, p) ∈ h.props f.properties := by rw [h6]; simp
        exact .sub hsh (.property hmem) hl
      · obtain ⟨h6, h7⟩ := h5 k x hk hd
        refine ⟨h6, ?_⟩
        rcases h7 with h7 | ⟨p, h7, h8, h9⟩
        · exact Or.inl h7
        · exact Or.inr ⟨p, h7, h8, hPQ _ _ (fun l hl => .sub hsh (.pattern h7) hl) h9⟩
    | union l e =>
      simp only at hs ⊢
      obtain ⟨m, h1, h2⟩ := hs
      refine ⟨m, by rwa [c.slice_eq], hPQ _ _ (fun l hl => .sub hsh (.member h1) hl) h2⟩
    | recursive y => exact hPQ _ _ (fun l hl => .head hsh hl) hs
    | _ => exact hs

theorem valid_agree_one {E : Ext} {h h' : St} {a : Addr} (c : Agree (Part h a) h h') {v : GoVal} (hv : Valid E h a v) :
    Valid E h' a v := by
  refine hv (fun x w => (∀ l, Part h x l → Part h a l) → Valid E h' x w) ?_ (fun l hl => hl)
  intro x w hst hx
  rw [valid_iff_step]
  refine step_agree (c.mono hx) (fun y u hy hP => ?_) hst
  exact hP (fun l hl => hx l (hy l hl))

/-- Heaps that agree on the cells of a type give it the same values. -/
theorem valid_agree {E : Ext} {h h' : St} {a : Addr} (c : Agree (Part h a) h h') (v : GoVal) :
    Valid E h' a v ↔ Valid E h a v := by
  refine ⟨fun hv => ?_, valid_agree_one c⟩
  refine valid_agree_one (h := h') (h' := h) (c.symm.mono fun l hl => (part_of_agree c l).1 hl) hv

end GoRaml
