import Verif.Lemmas.EmbedSource
import Verif.Lemmas.LoadInv
import Verif.Lemmas.Validate
import Verif.Spec.ValidateAll

/-!
# Whether a type is right does not depend on where its data lies
-/

namespace GoRaml.Emb

open GoRaml GoRaml.Spec GoRaml.Load

/-- All pointers of the region stay in it, and every type has a shape. -/
structure Tight (r : St) : Prop where
  base : ∀ a b, r.base a = some b → BaseIn r b ∧ ∃ sh, b.shape = some sh
  props : ∀ m ∈ r.pmaps, ∀ x ∈ m, IsBase r x.2.base
  patProps : ∀ m ∈ r.ppmaps, ∀ x ∈ m, IsBase r x.2.base
  slices : ∀ l ∈ r.slices, ∀ a ∈ l, IsBase r a

/-- The region `r` is found in `T`, placed by `e`. -/
structure Holds (e : Place) (r T : St) : Prop where
  base : ∀ a b, r.base a = some b → T.base (e.sb a) = some (e.base b)
  props : ∀ p, IfSome (· < r.pmaps.length) p → T.props (p.map e.sp) = e.props (r.props p)
  patProps : ∀ p, IfSome (· < r.ppmaps.length) p → T.patProps (p.map e.sq) = e.pats (r.patProps p)
  slice : ∀ p, IfSome (· < r.slices.length) p → T.slice (p.map e.ss) = (r.slice p).map e.sb
  facetMap : ∀ p, IfSome (· < r.fmaps.length) p → T.facetMap (p.map e.sf) = r.facetMap p

theorem Place.sb_inj {e : Place} {a b : Addr} : e.sb a = e.sb b ↔ a = b := by unfold Place.sb; unfold Addr at *; omega

theorem getElem?_above {α : Type} {P l : List α} {i : Nat} (h : P <+: l) (hi : i < P.length) : l[i]? = P[i]? := by
  obtain ⟨m, rfl⟩ := h
  rw [List.getElem?_append_left hi]

theorem Holds.of_above {e : Place} {r T : St} (h : Above (e.embed r) T) : Holds e r T where
  base a b hb := h.base (by rw [Place.base_embed, hb]; rfl)
  props p hp := by
    rw [← Place.props_embed]
    cases p with
    | none => rfl
    | some i =>
      have := hp i rfl
      simp only [Option.map_some, St.props]
      rw [getElem?_above h.pmaps (by simp only [Place.embed, Place.sp, List.length_append, List.length_map]; omega)]
  patProps p hp := by
    rw [← Place.patProps_embed]
    cases p with
    | none => rfl
    | some i =>
      have := hp i rfl
      simp only [Option.map_some, St.patProps]
      rw [getElem?_above h.ppmaps (by simp only [Place.embed, Place.sq, List.length_append, List.length_map]; omega)]
  slice p hp := by
    rw [← Place.slice_embed]
    cases p with
    | none => rfl
    | some i =>
      have := hp i rfl
      simp only [Option.map_some, St.slice]
      rw [getElem?_above h.slices (by simp only [Place.embed, Place.ss, List.length_append, List.length_map]; omega)]
  facetMap p hp := by
    rw [← Place.facetMap_embed e r p]
    cases p with
    | none => rfl
    | some i =>
      have := hp i rfl
      simp only [Option.map_some, St.facetMap]
      rw [getElem?_above h.fmaps (by simp only [Place.embed, Place.sf, List.length_append]; omega)]

section
variable {e : Place} {r T : St} (ht : Tight r) (H : Holds e r T)

include ht in
theorem Tight.ptrs {a : Addr} {s : Shape} (h : r.shapeAt a = some s) : ShapeIn r s := by
  unfold St.shapeAt at h
  cases hb : r.base a with
  | none => rw [hb] at h; cases h
  | some b => rw [hb] at h; exact (ht.base a b hb).1.shape s h

include ht in
theorem Tight.props_mem {p : Option Nat} {x : String × Property} (hx : x ∈ r.props p) : IsBase r x.2.base := by
  cases p with
  | none => cases hx
  | some i =>
    simp only [St.props] at hx
    cases hm : r.pmaps[i]? with
    | none => rw [hm] at hx; cases hx
    | some m => rw [hm] at hx; exact ht.props m (List.mem_of_getElem? hm) x hx

include ht in
theorem Tight.patProps_mem {p : Option Nat} {x : String × PatternProperty} (hx : x ∈ r.patProps p) : IsBase r x.2.base := by
  cases p with
  | none => cases hx
  | some i =>
    simp only [St.patProps] at hx
    cases hm : r.ppmaps[i]? with
    | none => rw [hm] at hx; cases hx
    | some m => rw [hm] at hx; exact ht.patProps m (List.mem_of_getElem? hm) x hx

include ht in
theorem Tight.slice_mem {p : Option Nat} {x : Addr} (hx : x ∈ r.slice p) : IsBase r x := by
  cases p with
  | none => cases hx
  | some i =>
    simp only [St.slice] at hx
    cases hm : r.slices[i]? with
    | none => rw [hm] at hx; cases hx
    | some m => rw [hm] at hx; exact ht.slices m (List.mem_of_getElem? hm) x hx

include ht in
theorem Tight.edge {a y : Addr} {s : Shape} (h : r.shapeAt a = some s) (hy : ShapeEdge r s y) : IsBase r y := by
  have := ht.ptrs h
  cases hy with
  | items hi => exact this y hi
  | property hp => exact ht.props_mem hp
  | pattern hp => exact ht.patProps_mem hp
  | member hm => exact ht.slice_mem hm

include ht in
theorem Tight.shape {a : Addr} (ha : IsBase r a) : ∃ s, r.shapeAt a = some s := by
  obtain ⟨b, hb⟩ : ∃ b, r.base a = some b := ⟨_, List.getElem?_eq_getElem ha⟩
  obtain ⟨s, hs⟩ := (ht.base a b hb).2
  exact ⟨s, by simp [St.shapeAt, hb, hs]⟩

include H in
theorem Holds.shapeAt {a : Addr} {s : Shape} (h : r.shapeAt a = some s) : T.shapeAt (e.sb a) = some (e.shape s) := by
  unfold St.shapeAt at h ⊢
  cases hb : r.base a with
  | none => rw [hb] at h; cases h
  | some b => rw [hb] at h; rw [H.base a b hb]; simp only [Option.bind_some, Place.base] at h ⊢; rw [h]; rfl

/-- A declaration, after moving. -/
theorem declares_props {m : OMap Property} {k : String} {p' : Property} :
    Declares (e.props m) k p' ↔ ∃ p, p' = e.prop p ∧ Declares m k p := by
  constructor
  · rintro ⟨pre, post, h1, h2⟩
    obtain ⟨pre0, rest0, h3, h4, h5⟩ := List.map_eq_append_iff.1 h1
    obtain ⟨x, post0, h6, h7, h8⟩ := List.map_eq_cons_iff.1 h5
    obtain ⟨k0, p⟩ := x
    cases h7
    subst h4
    refine ⟨p, rfl, pre0, post0, by rw [h3, h6], fun q hq => h2 (q.1, e.prop q.2) (List.mem_map_of_mem hq)⟩
  · rintro ⟨p, rfl, pre, post, h1, h2⟩
    refine ⟨e.props pre, e.props post, by simp [h1, Place.props], ?_⟩
    intro q hq
    obtain ⟨q0, hq0, rfl⟩ := List.mem_map.1 hq
    exact h2 q0 hq0

include ht H in
theorem step_up {E : Ext} {P Q : Addr → GoVal → Prop} {a : Addr} (hPQ : ∀ y v, IsBase r y → P y v → Q (e.sb y) v) {v : GoVal}
    (hs : Step E r P a v) : Step E T Q (e.sb a) v := by
  unfold Step at hs ⊢
  cases hsh : r.shapeAt a with
  | none => simp [hsh] at hs
  | some s =>
    have hin := ht.ptrs hsh
    rw [hsh] at hs
    rw [H.shapeAt hsh]
    cases s with
    | array f =>
      obtain ⟨l, h1, h2, h3, h4⟩ := hs
      refine ⟨l, h1, h2, fun b hb x hx => ?_, h4⟩
      obtain ⟨y, hy, rfl⟩ := Option.map_eq_some_iff.1 hb
      exact hPQ _ _ (hin y hy) (h3 y hy x hx)
    | object f =>
      obtain ⟨m, h1, h2, h3, h4, h5⟩ := hs
      have e1 := H.props f.properties hin.1
      have e2 := H.patProps f.patternProperties hin.2
      simp only [Place.shape]
      unfold ObjectOK
      simp only [Place.obj, e1, e2]
      refine ⟨m, h1, h2, ?_, ?_, ?_⟩
      · intro p hp hreq
        obtain ⟨q, hq, rfl⟩ := List.mem_map.1 hp
        exact h3 q hq hreq
      · intro k x p hk hd
        obtain ⟨q, rfl, hq⟩ := declares_props.1 hd
        refine hPQ _ _ ?_ (h4 k x q hk hq)
        obtain ⟨pre, post, h6, -⟩ := hq
        exact ht.props_mem (p := f.properties) (x := (k, q)) (by rw [h6]; simp)
      · intro k x hk hn
        obtain ⟨h6, h7⟩ := h5 k x hk fun q hq => hn (q.1, e.prop q.2) (List.mem_map_of_mem hq)
        refine ⟨h6, ?_⟩
        rcases h7 with h7 | ⟨p, h7, h8, h9⟩
        · refine Or.inl fun p hp => ?_
          obtain ⟨q, hq, rfl⟩ := List.mem_map.1 hp
          exact h7 q hq
        · exact Or.inr ⟨(p.1, e.pat p.2), List.mem_map_of_mem h7, h8, hPQ _ _ (ht.patProps_mem h7) h9⟩
    | union l en =>
      obtain ⟨m, h1, h2⟩ := hs
      refine ⟨e.sb m, ?_, hPQ _ _ (ht.slice_mem h1) h2⟩
      rw [H.slice l hin]
      exact List.mem_map_of_mem h1
    | recursive y => exact hPQ _ _ hin hs
    | _ => exact hs

include ht H in
theorem step_down {E : Ext} {P Q : Addr → GoVal → Prop} {a : Addr} (ha : IsBase r a) (hPQ : ∀ y v, IsBase r y → Q (e.sb y) v → P y v) {v : GoVal}
    (hs : Step E T Q (e.sb a) v) : Step E r P a v := by
  obtain ⟨s, hsh⟩ := ht.shape ha
  have hin := ht.ptrs hsh
  unfold Step at hs ⊢
  rw [hsh]
  rw [H.shapeAt hsh] at hs
  cases s with
  | array f =>
    obtain ⟨l, h1, h2, h3, h4⟩ := hs
    refine ⟨l, h1, h2, fun b hb x hx => ?_, h4⟩
    exact hPQ _ _ (hin b hb) (h3 (e.sb b) (by simp [Place.arr, hb]) x hx)
  | object f =>
    have e1 := H.props f.properties hin.1
    have e2 := H.patProps f.patternProperties hin.2
    simp only [Place.shape] at hs
    unfold ObjectOK at hs
    simp only [Place.obj, e1, e2] at hs
    obtain ⟨m, h1, h2, h3, h4, h5⟩ := hs
    refine ⟨m, h1, h2, ?_, ?_, ?_⟩
    · intro p hp hreq
      exact h3 (p.1, e.prop p.2) (List.mem_map_of_mem hp) hreq
    · intro k x p hk hd
      refine hPQ _ _ ?_ (h4 k x (e.prop p) hk (declares_props.2 ⟨p, rfl, hd⟩))
      obtain ⟨pre, post, h6, -⟩ := hd
      exact ht.props_mem (p := f.properties) (x := (k, p)) (by rw [h6]; simp)
    · intro k x hk hn
      obtain ⟨h6, h7⟩ := h5 k x hk fun q hq => by
        obtain ⟨q0, hq0, rfl⟩ := List.mem_map.1 hq
        exact hn q0 hq0
      refine ⟨h6, ?_⟩
      rcases h7 with h7 | ⟨p, h7, h8, h9⟩
      · exact Or.inl fun p hp => h7 (p.1, e.pat p.2) (List.mem_map_of_mem hp)
      · obtain ⟨q, hq, rfl⟩ := List.mem_map.1 h7
        exact Or.inr ⟨q, hq, h8, hPQ _ _ (ht.patProps_mem hq) h9⟩
  | union l en =>
    obtain ⟨m, h1, h2⟩ := hs
    rw [H.slice l hin] at h1
    obtain ⟨m0, hm0, rfl⟩ := List.mem_map.1 h1
    exact ⟨m0, hm0, hPQ _ _ (ht.slice_mem hm0) h2⟩
  | recursive y => exact hPQ _ _ hin hs
  | _ => exact hs

include ht H in
/-- A type has the same values wherever it lies. -/
theorem valid_iff {E : Ext} {a : Addr} (ha : IsBase r a) (v : GoVal) : Valid E T (e.sb a) v ↔ Valid E r a v := by
  constructor
  · intro h
    refine h (fun y w => ∀ x, IsBase r x → y = e.sb x → Valid E r x w) ?_ a ha rfl
    rintro _ w hst x hx rfl
    rw [valid_iff_step]
    exact step_down ht H hx (fun y v hy hq => hq y hy rfl) hst
  · intro h
    refine h (fun y w => Valid E T (e.sb y) w) ?_
    intro x w hst
    rw [valid_iff_step]
    exact step_up ht H (fun y v _ hp => hp) hst

include ht H in
theorem edge_iff {a : Addr} {s : Shape} (hs : r.shapeAt a = some s) {y : Addr} :
    ShapeEdge T (e.shape s) y ↔ ∃ x, y = e.sb x ∧ ShapeEdge r s x := by
  have hin := ht.ptrs hs
  constructor
  · intro h
    cases s with
    | array f =>
      cases h with
      | items hi => obtain ⟨x, hx, rfl⟩ := Option.map_eq_some_iff.1 hi; exact ⟨x, rfl, .items hx⟩
    | object f =>
      generalize hsh : e.shape (.object f) = s' at h
      cases h with
      | items => cases hsh
      | member => cases hsh
      | property hp =>
        cases hsh
        simp only [Place.obj, H.props f.properties hin.1] at hp
        obtain ⟨q, hq, rfl⟩ := List.mem_map.1 hp
        exact ⟨_, rfl, .property hq⟩
      | pattern hp =>
        cases hsh
        simp only [Place.obj, H.patProps f.patternProperties hin.2] at hp
        obtain ⟨q, hq, rfl⟩ := List.mem_map.1 hp
        exact ⟨_, rfl, .pattern hq⟩
    | union l en =>
      cases h with
      | member hm =>
        rw [H.slice l hin] at hm
        obtain ⟨q, hq, rfl⟩ := List.mem_map.1 hm
        exact ⟨_, rfl, .member hq⟩
    | _ => cases h
  · rintro ⟨x, rfl, h⟩
    cases h with
    | @items f x hi => exact ShapeEdge.items (f := e.arr f) (by simp [Place.arr, hi])
    | @property f p hp =>
      have : (p.1, e.prop p.2) ∈ T.props (e.obj f).properties := by
        simp only [Place.obj]; rw [H.props f.properties hin.1]; exact List.mem_map_of_mem hp
      exact ShapeEdge.property (f := e.obj f) this
    | @pattern f p hp =>
      have : (p.1, e.pat p.2) ∈ T.patProps (e.obj f).patternProperties := by
        simp only [Place.obj]; rw [H.patProps f.patternProperties hin.2]; exact List.mem_map_of_mem hp
      exact ShapeEdge.pattern (f := e.obj f) this
    | @member l en m hm =>
      exact ShapeEdge.member (by rw [H.slice l hin]; exact List.mem_map_of_mem hm)

include ht H in
theorem mentions_iff {a y : Addr} (ha : IsBase r a) : Mentions T (e.sb a) y ↔ ∃ x, y = e.sb x ∧ Mentions r a x := by
  constructor
  · intro h
    generalize hz : e.sb a = z at h
    induction h generalizing a with
    | refl => exact ⟨a, hz.symm, .refl a⟩
    | step h1 h2 _ ih =>
      subst hz
      obtain ⟨s, hs⟩ := ht.shape ha
      rw [H.shapeAt hs] at h1
      cases h1
      obtain ⟨x, rfl, hx⟩ := (edge_iff ht H hs).1 h2
      obtain ⟨w, rfl, hw⟩ := ih (ht.edge hs hx) rfl
      exact ⟨w, rfl, .step hs hx hw⟩
  · rintro ⟨x, rfl, h⟩
    induction h with
    | refl => exact .refl _
    | step h1 h2 _ ih => exact .step (H.shapeAt h1) ((edge_iff ht H h1).2 ⟨_, rfl, h2⟩) (ih (ht.edge h1 h2))

include ht in
theorem Tight.mentions {a y : Addr} (ha : IsBase r a) (h : Mentions r a y) : IsBase r y := by
  induction h with
  | refl => exact ha
  | step h1 h2 _ ih => exact ih (ht.edge h1 h2)

theorem scalar_shape (s : Shape) : IsScalarType (e.shape s) ↔ IsScalarType s := by cases s <;> rfl

include ht H in
theorem definition_iff {E : Ext} {a : Addr} {s : Shape} (hs : r.shapeAt a = some s) : DefinitionOK E T (e.shape s) ↔ DefinitionOK E r s := by
  have hin := ht.ptrs hs
  cases s with
  | object f =>
    simp only [Place.shape, DefinitionOK, Place.obj, H.props f.properties hin.1, Option.map_eq_none_iff]
    refine and_congr Iff.rfl (and_congr Iff.rfl ?_)
    refine forall_congr' fun d => imp_congr Iff.rfl ?_
    constructor
    · rintro ⟨p', s', h1, h2, h3, h4⟩
      obtain ⟨p, rfl, h5⟩ := declares_props.1 h1
      have hb : IsBase r p.base := by
        obtain ⟨pre, post, h6, -⟩ := h5
        exact ht.props_mem (p := f.properties) (x := (d, p)) (by rw [h6]; simp)
      obtain ⟨sp, hsp⟩ := ht.shape hb
      have h6 := H.shapeAt hsp
      simp only [Place.prop] at h2 h4
      rw [h6] at h2
      cases h2
      exact ⟨p, sp, h5, hsp, (scalar_shape sp).1 h3, fun hn => (valid_iff ht H hb _).1 (h4 hn)⟩
    · rintro ⟨p, s', h1, h2, h3, h4⟩
      have hb : IsBase r p.base := by
        obtain ⟨pre, post, h6, -⟩ := h1
        exact ht.props_mem (p := f.properties) (x := (d, p)) (by rw [h6]; simp)
      exact ⟨e.prop p, e.shape s', declares_props.2 ⟨p, rfl, h1⟩, H.shapeAt h2, (scalar_shape s').2 h3, fun hn => (valid_iff ht H hb _).2 (h4 hn)⟩
  | _ => exact Iff.rfl

include ht H in
theorem consistent_iff {E : Ext} {a : Addr} (ha : IsBase r a) : Consistent E T (e.sb a) ↔ Consistent E r a := by
  constructor
  · intro h y hy
    obtain ⟨s, hs⟩ := ht.shape (ht.mentions ha hy)
    obtain ⟨s', h1, h2⟩ := h (e.sb y) ((mentions_iff ht H ha).2 ⟨y, rfl, hy⟩)
    rw [H.shapeAt hs] at h1
    cases h1
    exact ⟨s, hs, (definition_iff ht H hs).1 h2⟩
  · intro h y hy
    obtain ⟨x, rfl, hx⟩ := (mentions_iff ht H ha).1 hy
    obtain ⟨s, h1, h2⟩ := h x hx
    exact ⟨_, H.shapeAt h1, (definition_iff ht H h1).2 h2⟩

include ht H in
theorem chain_iff {i : Option Nat} (hi : IfSome (· < r.slices.length) i) {l' : List Property} :
    ChainDefs T (i.map e.ss) l' ↔ ∃ l, l' = l.map e.prop ∧ ChainDefs r i l := by
  constructor
  · intro h
    generalize hj : i.map e.ss = j at h
    induction h generalizing i with
    | root j h1 =>
      subst hj
      rw [H.slice i hi] at h1
      exact ⟨[], rfl, .root i (List.map_eq_nil_iff.1 h1)⟩
    | parent j p ps b l h1 h2 _ ih =>
      subst hj
      rw [H.slice i hi] at h1
      obtain ⟨p0, ps0, h3, rfl, rfl⟩ := List.map_eq_cons_iff.1 h1
      have hp0 : IsBase r p0 := ht.slice_mem (p := i) (by rw [h3]; simp)
      obtain ⟨b0, hb0⟩ : ∃ b, r.base p0 = some b := ⟨_, List.getElem?_eq_getElem hp0⟩
      rw [H.base p0 b0 hb0] at h2
      cases h2
      have hin := (ht.base p0 b0 hb0).1
      obtain ⟨l0, rfl, hl0⟩ := ih hin.inherits rfl
      refine ⟨(r.props b0.facetDefs).map (·.2) ++ l0, ?_, .parent i p0 ps0 b0 l0 h3 hb0 hl0⟩
      simp only [Place.base, H.props b0.facetDefs hin.facetDefs, Place.props, List.map_append, List.map_map]
      rfl
  · rintro ⟨l, rfl, h⟩
    induction h with
    | root i h1 => exact .root _ (by rw [H.slice i hi, h1]; rfl)
    | parent i p ps b l h1 h2 _ ih =>
      have hin := (ht.base p b h2).1
      have := ChainDefs.parent (h := T) (i.map e.ss) (e.sb p) (ps.map e.sb) (e.base b) (l.map e.prop) (by rw [H.slice i hi, h1]; rfl) (H.base p b h2) (ih hin.inherits)
      rw [show (T.props (e.base b).facetDefs) = e.props (r.props b.facetDefs) from H.props b.facetDefs hin.facetDefs] at this
      simpa [Place.props, List.map_map, Function.comp_def] using this

theorem declaresFacet_map {l : List Property} {k : String} {f' : Property} :
    DeclaresFacet (l.map e.prop) k f' ↔ ∃ f, f' = e.prop f ∧ DeclaresFacet l k f := by
  constructor
  · rintro ⟨h0, pre, post, h1, h2⟩
    obtain ⟨pre0, rest0, h3, h4, h5⟩ := List.map_eq_append_iff.1 h1
    obtain ⟨x, post0, h6, h7, h8⟩ := List.map_eq_cons_iff.1 h5
    subst h7 h8
    exact ⟨x, rfl, h0, pre0, post0, by rw [h3, h6], fun g hg => h2 (e.prop g) (List.mem_map_of_mem hg)⟩
  · rintro ⟨f, rfl, h0, pre, post, h1, h2⟩
    refine ⟨h0, pre.map e.prop, post.map e.prop, by simp [h1], ?_⟩
    intro g hg
    obtain ⟨g0, hg0, rfl⟩ := List.mem_map.1 hg
    exact h2 g0 hg0

include ht in
theorem Tight.chain {i : Option Nat} {l : List Property} (h : ChainDefs r i l) : ∀ f ∈ l, IsBase r f.base := by
  induction h with
  | root => simp
  | parent i p ps b l _ _ _ ih =>
    intro f hf
    rcases List.mem_append.1 hf with hf | hf
    · obtain ⟨x, hx, rfl⟩ := List.mem_map.1 hf; exact ht.props_mem hx
    · exact ih f hf

include ht H in
theorem facets_iff {E : Ext} {a : Addr} {b : Base} (hb : r.base a = some b) : FacetsOK E T (e.base b) ↔ FacetsOK E r b := by
  have hin := (ht.base a b hb).1
  have hfa : IfSome (· < r.fmaps.length) b.facets := by
    obtain ⟨i, h1, h2⟩ := hin.facets
    intro j hj; rw [h1] at hj; cases hj; exact h2
  have e1 : T.props (e.base b).facetDefs = e.props (r.props b.facetDefs) := H.props b.facetDefs hin.facetDefs
  have e2 : T.facetMap (e.base b).facets = r.facetMap b.facets := H.facetMap b.facets hfa
  constructor
  · rintro ⟨l', h1, h2⟩
    obtain ⟨l, rfl, hl⟩ := (chain_iff ht H hin.inherits).1 h1
    have hbase := ht.chain hl
    have mem : ∀ {k f}, DeclaresFacet l k f → f ∈ l := by rintro k f ⟨-, pre, post, h, -⟩; rw [h]; simp
    refine ⟨l, hl, ?_, ?_, ?_, ?_⟩
    · intro f hf x hx
      exact h2.fresh (e.prop f) (List.mem_map_of_mem hf) (x.1, e.prop x.2) (by rw [e1]; exact List.mem_map_of_mem hx)
    · intro k f hd hreq
      have := h2.required k (e.prop f) (declaresFacet_map.2 ⟨f, rfl, hd⟩) hreq
      rwa [e2] at this
    · intro k f v hd hv
      exact (valid_iff ht H (hbase f (mem hd)) v).1 (h2.typed k (e.prop f) v (declaresFacet_map.2 ⟨f, rfl, hd⟩) (by rwa [e2]))
    · intro x hx
      obtain ⟨f', hf', hn⟩ := h2.declared x (by rwa [e2])
      obtain ⟨f, hf, rfl⟩ := List.mem_map.1 hf'
      exact ⟨f, hf, hn⟩
  · rintro ⟨l, hl, h2⟩
    have hbase := ht.chain hl
    have mem : ∀ {k f}, DeclaresFacet l k f → f ∈ l := by rintro k f ⟨-, pre, post, h, -⟩; rw [h]; simp
    refine ⟨l.map e.prop, (chain_iff ht H hin.inherits).2 ⟨l, rfl, hl⟩, ?_, ?_, ?_, ?_⟩
    · intro f' hf' x' hx'
      obtain ⟨f, hf, rfl⟩ := List.mem_map.1 hf'
      rw [e1] at hx'
      obtain ⟨x, hx, rfl⟩ := List.mem_map.1 hx'
      exact h2.fresh f hf x hx
    · intro k f' hd hreq
      obtain ⟨f, rfl, hd'⟩ := declaresFacet_map.1 hd
      rw [e2]
      exact h2.required k f hd' hreq
    · intro k f' v hd hv
      obtain ⟨f, rfl, hd'⟩ := declaresFacet_map.1 hd
      rw [e2] at hv
      exact (valid_iff ht H (hbase f (mem hd')) v).2 (h2.typed k f v hd' hv)
    · intro x hx
      rw [e2] at hx
      obtain ⟨f, hf, hn⟩ := h2.declared x hx
      exact ⟨e.prop f, List.mem_map_of_mem hf, hn⟩

include ht H in
theorem examples_iff {E : Ext} {a : Addr} {b : Base} (hb : r.base a = some b) : ExamplesOK E T (e.sb a) (e.base b) ↔ ExamplesOK E r a b := by
  have ha : IsBase r a := (List.getElem?_eq_some_iff.1 hb).1
  constructor
  · rintro ⟨h1, h2, h3⟩
    exact ⟨fun x hx => (valid_iff ht H ha _).1 (h1 x hx), fun x m hx hm y hy => (valid_iff ht H ha _).1 (h2 x m hx hm y hy), fun v hv => (valid_iff ht H ha _).1 (h3 v hv)⟩
  · rintro ⟨h1, h2, h3⟩
    exact ⟨fun x hx => (valid_iff ht H ha _).2 (h1 x hx), fun x m hx hm y hy => (valid_iff ht H ha _).2 (h2 x m hx hm y hy), fun v hv => (valid_iff ht H ha _).2 (h3 v hv)⟩

include ht H in
theorem component_iff {a y : Addr} (ha : IsBase r a) : Component T (e.sb a) y ↔ ∃ x, y = e.sb x ∧ Component r a x := by
  obtain ⟨b, hb⟩ : ∃ b, r.base a = some b := ⟨_, List.getElem?_eq_getElem ha⟩
  obtain ⟨hin, s, hs⟩ := ht.base a b hb
  have hsa : r.shapeAt a = some s := by simp [St.shapeAt, hb, hs]
  have e1 : T.props (e.base b).facetDefs = e.props (r.props b.facetDefs) := H.props b.facetDefs hin.facetDefs
  constructor
  · rintro ⟨b', h1, h2⟩
    rw [H.base a b hb] at h1
    cases h1
    rcases h2 with ⟨s', h3, h4⟩ | ⟨x', h3, h4⟩
    · simp only [Place.base, hs, Option.map_some] at h3
      cases h3
      obtain ⟨x, rfl, hx⟩ := (edge_iff ht H hsa).1 h4
      exact ⟨x, rfl, b, hb, Or.inl ⟨s, hs, hx⟩⟩
    · rw [e1] at h3
      obtain ⟨x, hx, rfl⟩ := List.mem_map.1 h3
      exact ⟨x.2.base, h4.symm, b, hb, Or.inr ⟨x, hx, rfl⟩⟩
  · rintro ⟨x, rfl, b', h1, h2⟩
    rw [hb] at h1
    cases h1
    refine ⟨e.base b, H.base a b hb, ?_⟩
    rcases h2 with ⟨s', h3, h4⟩ | ⟨x', h3, h4⟩
    · rw [hs] at h3
      cases h3
      exact Or.inl ⟨e.shape s, by simp [Place.base, hs], (edge_iff ht H hsa).2 ⟨x, rfl, h4⟩⟩
    · exact Or.inr ⟨(x'.1, e.prop x'.2), by rw [e1]; exact List.mem_map_of_mem h3, by rw [← h4]; rfl⟩

include ht in
theorem Tight.component {a y : Addr} (h : Component r a y) : IsBase r y := by
  obtain ⟨b, hb, h⟩ := h
  rcases h with ⟨s, hs, he⟩ | ⟨x, hx, rfl⟩
  · exact ht.edge (a := a) (by simp [St.shapeAt, hb, hs]) he
  · exact ht.props_mem hx

include ht H in
theorem within_iff {a y : Addr} (ha : IsBase r a) : WithComponents T (e.sb a) y ↔ ∃ x, y = e.sb x ∧ IsBase r x ∧ WithComponents r a x := by
  constructor
  · intro h
    generalize hz : e.sb a = z at h
    induction h generalizing a with
    | refl => exact ⟨a, hz.symm, ha, .refl a⟩
    | step h1 _ ih =>
      subst hz
      obtain ⟨x, rfl, hx⟩ := (component_iff ht H ha).1 h1
      obtain ⟨w, rfl, hw', hw⟩ := ih (ht.component hx) rfl
      exact ⟨w, rfl, hw', .step hx hw⟩
  · rintro ⟨x, rfl, -, h⟩
    induction h with
    | refl => exact .refl _
    | step h1 _ ih => exact .step ((component_iff ht H ha).2 ⟨_, rfl, h1⟩) (ih (ht.component h1))

include ht H in
theorem commons_iff {E : Ext} {a : Addr} (ha : IsBase r a) : CommonsOK E T (e.sb a) ↔ CommonsOK E r a := by
  constructor
  · intro h y hy
    have hby : IsBase r y := by
      clear h
      induction hy with
      | refl => exact ha
      | step h1 _ ih => exact ih (ht.component h1)
    obtain ⟨b, hb⟩ : ∃ b, r.base y = some b := ⟨_, List.getElem?_eq_getElem hby⟩
    obtain ⟨b', h1, h2, h3⟩ := h (e.sb y) ((within_iff ht H ha).2 ⟨y, rfl, hby, hy⟩)
    rw [H.base y b hb] at h1
    cases h1
    exact ⟨b, hb, (facets_iff ht H hb).1 h2, (examples_iff ht H hb).1 h3⟩
  · intro h y hy
    obtain ⟨x, rfl, -, hx⟩ := (within_iff ht H ha).1 hy
    obtain ⟨b, hb, h2, h3⟩ := h x hx
    exact ⟨e.base b, H.base x b hb, (facets_iff ht H hb).2 h2, (examples_iff ht H hb).2 h3⟩

include ht H in
/-- A type is right wherever it lies, or nowhere. -/
theorem typeOK_iff {E : Ext} {a : Addr} (ha : IsBase r a) : TypeOK E T (e.sb a) ↔ TypeOK E r a :=
  and_congr (consistent_iff ht H ha) (commons_iff ht H ha)

end

/-- A region is tight when the model it lies in is closed. -/
theorem Tight.of_embed {e : Place} {r : St} (hb : ∀ a b, (e.embed r).base a = some b → BaseIn (e.embed r) b ∧ ∃ sh, b.shape = some sh)
    (hp : ∀ m ∈ (e.embed r).pmaps, ∀ x ∈ m, IsBase (e.embed r) x.2.base) (hq : ∀ m ∈ (e.embed r).ppmaps, ∀ x ∈ m, IsBase (e.embed r) x.2.base)
    (hs : ∀ l ∈ (e.embed r).slices, ∀ a ∈ l, IsBase (e.embed r) a) : Tight r := by
  have base_in : ∀ {a}, IsBase (e.embed r) (e.sb a) → IsBase r a := by
    intro a h
    simp only [IsBase, Place.embed, Place.sb, List.length_append, List.length_map] at h ⊢
    unfold Addr at *; omega
  refine ⟨?_, ?_, ?_, ?_⟩
  · intro a b h
    obtain ⟨h1, sh', h2⟩ := hb (e.sb a) (e.base b) (by rw [Place.base_embed, h]; rfl)
    obtain ⟨sh, h3, -⟩ := Option.map_eq_some_iff.1 (show b.shape.map e.shape = some sh' from h2)
    refine ⟨⟨?_, ?_, ?_, ?_, ?_, ?_⟩, sh, h3⟩
    · intro s hs'
      have h4 := h1.shape (e.shape s) (by simp [Place.base, hs'])
      cases s with
      | array f => intro x hx; exact base_in (h4 (e.sb x) (by simp [Place.arr, hx]))
      | object f =>
        refine ⟨?_, ?_⟩
        · intro x hx
          have := h4.1 (e.sp x) (by simp [Place.obj, hx])
          simp only [Place.embed, Place.sp, List.length_append, List.length_map] at this; omega
        · intro x hx
          have := h4.2 (e.sq x) (by simp [Place.obj, hx])
          simp only [Place.embed, Place.sq, List.length_append, List.length_map] at this; omega
      | union l en =>
        intro x hx
        have := h4 (e.ss x) (by simp [hx])
        simp only [Place.embed, Place.ss, List.length_append, List.length_map] at this; omega
      | recursive y => exact base_in h4
      | _ => trivial
    · obtain ⟨i, h4, h5⟩ := h1.facets
      obtain ⟨j, h6, rfl⟩ := Option.map_eq_some_iff.1 (show b.facets.map e.sf = some i from h4)
      simp only [Place.embed, Place.sf, List.length_append] at h5
      exact ⟨j, h6, by omega⟩
    · intro x hx
      have := h1.facetDefs (e.sp x) (by simp [Place.base, hx])
      simp only [Place.embed, Place.sp, List.length_append, List.length_map] at this; omega
    · intro x hx; exact base_in (h1.alias (e.sb x) (by simp [Place.base, hx]))
    · intro x hx
      have := h1.inherits (e.ss x) (by simp [Place.base, hx])
      simp only [Place.embed, Place.ss, List.length_append, List.length_map] at this; omega
    · intro x hx
      have := h1.link (e.sd x) (by simp [Place.base, hx])
      simp only [Place.embed, Place.sd, List.length_append, List.length_map] at this; omega
  · intro m hm x hx
    exact base_in (hp (e.props m) (by simp only [Place.embed, List.mem_append]; exact Or.inr (List.mem_map_of_mem hm)) (x.1, e.prop x.2) (List.mem_map_of_mem hx))
  · intro m hm x hx
    exact base_in (hq (e.pats m) (by simp only [Place.embed, List.mem_append]; exact Or.inr (List.mem_map_of_mem hm)) (x.1, e.pat x.2) (List.mem_map_of_mem hx))
  · intro l hl a ha
    exact base_in (hs (l.map e.sb) (by simp only [Place.embed, List.mem_append]; exact Or.inr (List.mem_map_of_mem hl)) (e.sb a) (List.mem_map_of_mem ha))

end GoRaml.Emb
