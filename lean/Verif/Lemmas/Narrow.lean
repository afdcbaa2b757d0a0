import Verif.Lemmas.Agree

/-! Inheritance on the heap narrows (C16). -/

namespace GoRaml

open Spec

theorem integer_inherit_spec {f g r : IntegerF} (h : f.inherit g = .ok r) (v : GoVal) (hv : IntegerOK r v) :
    IntegerOK g v := by
  obtain ⟨i, h1, h2, h3⟩ := hv
  simp only [IntegerF.inherit] at h
  obtain ⟨lo, e1, h⟩ := Out.bind_ok.1 h
  obtain ⟨hi', e2, h⟩ := Out.bind_ok.1 h
  obtain ⟨en, e3, h⟩ := Out.bind_ok.1 h
  obtain ⟨fm, e4, h⟩ := Out.bind_ok.1 h
  simp at h; subst h
  refine ⟨i, h1, ?_, ?_⟩
  · exact ((between_inherit intLt _ intLt_false e1 e2 i (fun a b _ _ => intLt_law i a b)
      (fun a b _ _ => intLt_law' i a b)).1 h2).2
  · exact ((inheritEnum_ok e3 _).1 h3).2

/-- One level: the result of a scalar `inherit` is contained in the source. -/
theorem leaf_step_narrow {E : Ext} {h h' : St} {a b : Addr} {t s r : Shape} (hl : leafInherit t s = .ok r)
    (hn : ScalarNarrows t s) (hb : h.shapeAt b = some s) (ha : h'.shapeAt a = some r) {P Q : Addr → GoVal → Prop} {v : GoVal}
    (hst : Step E h' P a v) : Step E h Q b v := by
  unfold Step at hst ⊢
  rw [ha] at hst
  rw [hb]
  cases t <;> simp only [ScalarNarrows] at hn <;> cases s <;> simp [leafInherit] at hl <;>
    try simp only [ScalarNarrows] at hn
  · subst hl; exact hst
  · subst hl; exact hst
  · obtain ⟨u, h1, h2⟩ := Out.bind_ok.1 hl
    simp at h2; subst h2
    simp only at hst ⊢
    rw [← (string_decides E _ v).ok_iff] at hst ⊢
    have := ((string_inherit_ok E h1 v).1 hst).2
    rename_i f g
    have e : ({ g with pattern := if f.pattern = none then g.pattern else none } : StringF) = g := by
      rcases hn with hp | hp
      · simp [hp]
      · cases g; simp_all
    rwa [e] at this
  · obtain ⟨u, h1, h2⟩ := Out.bind_ok.1 hl
    simp at h2; subst h2
    simp only at hst ⊢
    rcases hst with ⟨h3, h4⟩ | ⟨h3, x, h4, h5⟩
    · exact Or.inl ⟨h3, integer_inherit_spec h1 v h4⟩
    · exact Or.inr ⟨h3, x, h4, integer_inherit_spec h1 _ h5⟩
  · obtain ⟨u, h1, h2⟩ := Out.bind_ok.1 hl
    simp at h2; subst h2
    simp only at hst ⊢
    rw [← (number_decides E _ v).ok_iff] at hst ⊢
    exact ((number_inherit_ok E hn.1 hn.2 h1 v).1 hst).2
  · obtain ⟨u, h1, h2⟩ := Out.bind_ok.1 hl
    simp at h2; subst h2
    simp only at hst ⊢
    rwa [datetime_inherit_ok h1 hn] at hst
  · subst hl; exact hst
  · subst hl; exact hst
  · subst hl; exact hst
  · obtain ⟨u, h1, h2⟩ := Out.bind_ok.1 hl
    simp at h2; subst h2
    simp only at hst ⊢
    rw [← (file_decides _ v).ok_iff] at hst ⊢
    exact ((file_inherit_ok h1 v).1 hst).2
  · obtain ⟨u, h1, h2⟩ := Out.bind_ok.1 hl
    simp at h2; subst h2
    simp only at hst ⊢
    rw [← (boolean_decides _ v).ok_iff] at hst ⊢
    exact ((boolean_inherit_ok h1 v).1 hst).2
  · trivial

theorem Spec.MayNarrow.transport {E : Ext} {h h' : St} {a b : Addr} (hm : MayNarrow E.reMatch h a b)
    (c : Agree (fun l => Part h a l ∨ Part h b l) h h')
    (hi : ∀ x, Part h b (.base x) → visitedAt h x = some false → h.shapeAt x ≠ some .any → visitedAt h' x = some false) :
    MayNarrow E.reMatch h' a b := by
  have idle : ∀ {a b : Addr}, Idle h b → Agree (fun l => Part h a l ∨ Part h b l) h h' →
      (∀ x, Part h b (.base x) → visitedAt h x = some false → h.shapeAt x ≠ some .any → visitedAt h' x = some false) →
      h.shapeAt b ≠ some .any → Idle h' b := by
    intro a b hid c hi hs
    obtain ⟨x, h1, h2⟩ := hid
    have := hi b (.self b) (by simp [visitedAt, h1, h2]) hs
    simp only [visitedAt, Option.map_eq_some_iff] at this
    exact this
  induction hm with
  | any h1 => exact .any (by rw [c.shapeAt (Or.inr (.self _))]; exact h1)
  | @scalar a b t s h1 h2 h3 h4 =>
    by_cases hs : s = .any
    · subst hs
      exact .any (by rw [c.shapeAt (Or.inr (.self _))]; exact h2)
    · exact .scalar (by rw [c.shapeAt (Or.inl (.self _))]; exact h1) (by rw [c.shapeAt (Or.inr (.self _))]; exact h2)
        (idle h3 c hi (by rw [h2]; simpa using hs)) h4
  | @array a b f g h1 h2 h3 _ h5 ih =>
    have cs : ∀ i j, f.items = some i → g.items = some j → Agree (fun l => Part h i l ∨ Part h j l) h h' := by
      intro i j hi hj
      refine c.mono fun l hl => ?_
      rcases hl with hl | hl
      · exact Or.inl (.sub h1 (.items hi) hl)
      · exact Or.inr (.sub h2 (.items hj) hl)
    refine .array (by rw [c.shapeAt (Or.inl (.self _))]; exact h1) (by rw [c.shapeAt (Or.inr (.self _))]; exact h2)
      (idle h3 c hi (by rw [h2]; simp)) ?_ ?_
    · intro i j hi' hj'
      exact ih i j hi' hj' (cs i j hi' hj') (fun x hx => hi x (.sub h2 (.items hj') hx))
    · intro i j hi' hj'
      have := cs i j hi' hj'
      rw [part_of_agree (this.mono fun l hl => Or.inl hl), part_of_agree (this.mono fun l hl => Or.inr hl)]
      exact h5 i j hi' hj'
  | @object a b f g h1 h2 h3 h4 h5 h6 h7 h8 _ h9 h10 ih =>
    have e1 : h'.props f.properties = h.props f.properties := c.props_eq (fun i hi => Or.inl (.props h1 hi))
    have e2 : h'.props g.properties = h.props g.properties := c.props_eq (fun i hi => Or.inr (.props h2 hi))
    have e3 : h'.patProps g.patternProperties = h.patProps g.patternProperties :=
      c.patProps_eq (fun i hi => Or.inr (.patProps h2 hi))
    have mem : ∀ {ps : OMap Property} {k p}, Declares ps k p → (k, p) ∈ ps := by
      rintro ps k p ⟨pre, post, h, _⟩; rw [h]; simp
    have cf : ∀ k tp, Declares (h.props f.properties) k tp → Agree (Part h tp.base) h h' := fun k tp ht =>
      c.mono fun l hl => Or.inl (.sub h1 (.property (mem ht)) hl)
    have cg : ∀ k tp, Declares (h.props g.properties) k tp → Agree (Part h tp.base) h h' := fun k tp ht =>
      c.mono fun l hl => Or.inr (.sub h2 (.property (mem ht)) hl)
    refine .object (f := f) (g := g) (by rw [c.shapeAt (Or.inl (.self _))]; exact h1)
      (by rw [c.shapeAt (Or.inr (.self _))]; exact h2) (idle h3 c hi (by rw [h2]; simp)) ?_ ?_ ?_ ?_ ?_ ?_ ?_ ?_
    · rw [e1, e2]; exact h4
    · rw [e3]; exact h5
    · rw [e1, e2, e3]; exact h6
    · rw [e2]; exact h7
    · intro i hi'
      rw [c.props i (Or.inl (.props h1 hi'))]
      exact h8 i hi'
    · rw [e1, e2]
      intro k tp sp ht hs
      refine ih k tp sp ht hs (c.mono fun l hl => ?_) (fun x hx => hi x (.sub h2 (.property (mem hs)) hx))
      rcases hl with hl | hl
      · exact Or.inl (.sub h1 (.property (mem ht)) hl)
      · exact Or.inr (.sub h2 (.property (mem hs)) hl)
    · rw [e1, e2]
      intro k tp sp ht hs
      have g9 := h9 k tp sp ht hs
      refine ⟨?_, ?_, ?_⟩
      · rw [part_of_agree (cf k tp ht)]; exact g9.1
      · intro i hi'; rw [part_of_agree (cf k tp ht)]; exact g9.2.1 i hi'
      · rw [part_of_agree (cg k sp hs)]; exact g9.2.2
    · rw [e1, e2]
      intro k k' tp tp' hk ht ht' hq hq' l hl
      rw [part_of_agree (cf k tp ht)] at hl
      rw [part_of_agree (cf k' tp' ht')]
      exact h10 k k' tp tp' hk ht ht' hq hq' l hl

/-- A set of cells closed under the pointers of the heap. -/
structure Stays (h : St) (S : Loc → Prop) : Prop where
  propsPtr : ∀ {x f i}, S (.base x) → h.shapeAt x = some (.object f) → f.properties = some i → S (.props i)
  patPtr : ∀ {x f i}, S (.base x) → h.shapeAt x = some (.object f) → f.patternProperties = some i → S (.patProps i)
  items : ∀ {x f y}, S (.base x) → h.shapeAt x = some (.array f) → f.items = some y → S (.base y)
  member : ∀ {x l e y}, S (.base x) → h.shapeAt x = some (.union l e) → y ∈ h.slice l → S (.base y)
  head : ∀ {x y}, S (.base x) → h.shapeAt x = some (.recursive y) → S (.base y)
  props : ∀ {i p}, S (.props i) → p ∈ h.props (some i) → S (.base p.2.base)
  patProps : ∀ {i p}, S (.patProps i) → p ∈ h.patProps (some i) → S (.base p.2.base)

theorem Stays.part {h : St} {S : Loc → Prop} (st : Stays h S) {x : Addr} {l : Loc} (hx : S (.base x)) (hl : Part h x l) :
    S l := by
  induction hl with
  | self a => exact hx
  | props h1 h2 => exact st.propsPtr hx h1 h2
  | patProps h1 h2 => exact st.patPtr hx h1 h2
  | sub h1 h2 _ ih =>
    refine ih ?_
    cases h2 with
    | items h3 => exact st.items hx h1 h3
    | @property f p h3 =>
      cases hp : f.properties with
      | none => rw [hp] at h3; cases h3
      | some i => rw [hp] at h3; exact st.props (st.propsPtr hx h1 hp) h3
    | @pattern f p h3 =>
      cases hp : f.patternProperties with
      | none => rw [hp] at h3; cases h3
      | some i => rw [hp] at h3; exact st.patProps (st.patPtr hx h1 hp) h3
    | member h3 => exact st.member hx h1 h3
  | head h1 _ ih => exact ih (st.head hx h1)

theorem Stays.union {h : St} {S T : Loc → Prop} (s : Stays h S) (t : Stays h T) : Stays h (fun l => S l ∨ T l) where
  propsPtr := fun h1 h2 h3 => h1.imp (fun h1 => s.propsPtr h1 h2 h3) (fun h1 => t.propsPtr h1 h2 h3)
  patPtr := fun h1 h2 h3 => h1.imp (fun h1 => s.patPtr h1 h2 h3) (fun h1 => t.patPtr h1 h2 h3)
  items := fun h1 h2 h3 => h1.imp (fun h1 => s.items h1 h2 h3) (fun h1 => t.items h1 h2 h3)
  member := fun h1 h2 h3 => h1.imp (fun h1 => s.member h1 h2 h3) (fun h1 => t.member h1 h2 h3)
  head := fun h1 h2 => h1.imp (fun h1 => s.head h1 h2) (fun h1 => t.head h1 h2)
  props := fun h1 h2 => h1.imp (fun h1 => s.props h1 h2) (fun h1 => t.props h1 h2)
  patProps := fun h1 h2 => h1.imp (fun h1 => s.patProps h1 h2) (fun h1 => t.patProps h1 h2)

theorem part_props {h : St} {a : Addr} {i : Nat} {p : String × Property} (hl : Part h a (.props i))
    (hp : p ∈ h.props (some i)) : Part h a (.base p.2.base) := by
  generalize hl' : Loc.props i = l at hl
  induction hl with
  | self a => cases hl'
  | props h1 h2 => cases hl'; exact .sub h1 (.property (by rw [h2]; exact hp)) (.self _)
  | patProps => cases hl'
  | sub h3 h4 _ ih => exact .sub h3 h4 (ih hl')
  | head h3 _ ih => exact .head h3 (ih hl')

theorem part_patProps {h : St} {a : Addr} {i : Nat} {p : String × PatternProperty} (hl : Part h a (.patProps i))
    (hp : p ∈ h.patProps (some i)) : Part h a (.base p.2.base) := by
  generalize hl' : Loc.patProps i = l at hl
  induction hl with
  | self a => cases hl'
  | patProps h1 h2 => cases hl'; exact .sub h1 (.pattern (by rw [h2]; exact hp)) (.self _)
  | props => cases hl'
  | sub h3 h4 _ ih => exact .sub h3 h4 (ih hl')
  | head h3 _ ih => exact .head h3 (ih hl')

theorem stays_part (h : St) (a : Addr) : Stays h (Part h a) where
  propsPtr := fun h1 h2 h3 => h1.trans (.props h2 h3)
  patPtr := fun h1 h2 h3 => h1.trans (.patProps h2 h3)
  items := fun h1 h2 h3 => h1.trans (.sub h2 (.items h3) (.self _))
  member := fun h1 h2 h3 => h1.trans (.sub h2 (.member h3) (.self _))
  head := fun h1 h2 => h1.trans (.head h2 (.self _))
  props := part_props
  patProps := part_patProps

/-- A closed set stays closed when the heap only changes inside a smaller set that is closed afterwards. -/
theorem Stays.change {h h' : St} {S T : Loc → Prop} (s : Stays h S) (c : Agree (fun l => ¬ T l) h h') (t : Stays h' T)
    (ht : ∀ l, T l → S l) : Stays h' S where
  propsPtr := by
    intro x f i h1 h2 h3
    by_cases hx : T (.base x)
    · exact ht _ (t.propsPtr hx h2 h3)
    · rw [c.shapeAt hx] at h2; exact s.propsPtr h1 h2 h3
  patPtr := by
    intro x f i h1 h2 h3
    by_cases hx : T (.base x)
    · exact ht _ (t.patPtr hx h2 h3)
    · rw [c.shapeAt hx] at h2; exact s.patPtr h1 h2 h3
  items := by
    intro x f i h1 h2 h3
    by_cases hx : T (.base x)
    · exact ht _ (t.items hx h2 h3)
    · rw [c.shapeAt hx] at h2; exact s.items h1 h2 h3
  member := by
    intro x l e y h1 h2 h3
    by_cases hx : T (.base x)
    · exact ht _ (t.member hx h2 h3)
    · rw [c.shapeAt hx] at h2; rw [c.slice_eq] at h3; exact s.member h1 h2 h3
  head := by
    intro x y h1 h2
    by_cases hx : T (.base x)
    · exact ht _ (t.head hx h2)
    · rw [c.shapeAt hx] at h2; exact s.head h1 h2
  props := by
    intro i p h1 h2
    by_cases hx : T (.props i)
    · exact ht _ (t.props hx h2)
    · rw [c.props_eq (p := some i) (fun j hj => by cases hj; exact hx)] at h2; exact s.props h1 h2
  patProps := by
    intro i p h1 h2
    by_cases hx : T (.patProps i)
    · exact ht _ (t.patProps hx h2)
    · rw [c.patProps_eq (p := some i) (fun j hj => by cases hj; exact hx)] at h2; exact s.patProps h1 h2

/-- A closed set stays closed when only the shape of one base changes and the new shape points into the set. -/
theorem Stays.setBase {h h' : St} {S : Loc → Prop} (s : Stays h S) {a : Addr} (c : Agree (fun l => l ≠ .base a) h h')
    (hpr : ∀ f i, h'.shapeAt a = some (.object f) → f.properties = some i → S (.props i))
    (hpa : ∀ f i, h'.shapeAt a = some (.object f) → f.patternProperties = some i → S (.patProps i))
    (hit : ∀ f y, h'.shapeAt a = some (.array f) → f.items = some y → S (.base y))
    (hun : ∀ l e, h'.shapeAt a ≠ some (.union l e)) (hre : ∀ y, h'.shapeAt a ≠ some (.recursive y)) : Stays h' S where
  propsPtr := by
    intro x f i h1 h2 h3
    by_cases hx : x = a
    · subst hx; exact hpr f i h2 h3
    · rw [c.shapeAt (by simpa using hx)] at h2; exact s.propsPtr h1 h2 h3
  patPtr := by
    intro x f i h1 h2 h3
    by_cases hx : x = a
    · subst hx; exact hpa f i h2 h3
    · rw [c.shapeAt (by simpa using hx)] at h2; exact s.patPtr h1 h2 h3
  items := by
    intro x f i h1 h2 h3
    by_cases hx : x = a
    · subst hx; exact hit f i h2 h3
    · rw [c.shapeAt (by simpa using hx)] at h2; exact s.items h1 h2 h3
  member := by
    intro x l e y h1 h2 h3
    by_cases hx : x = a
    · subst hx; exact absurd h2 (hun l e)
    · rw [c.shapeAt (by simpa using hx)] at h2; rw [c.slice_eq] at h3; exact s.member h1 h2 h3
  head := by
    intro x y h1 h2
    by_cases hx : x = a
    · subst hx; exact absurd h2 (hre y)
    · rw [c.shapeAt (by simpa using hx)] at h2; exact s.head h1 h2
  props := by
    intro i p h1 h2
    rw [c.props_eq (fun j hj => by simp)] at h2; exact s.props h1 h2
  patProps := by
    intro i p h1 h2
    rw [c.patProps_eq (fun j hj => by simp)] at h2; exact s.patProps h1 h2

/-- The cells named by three lists. -/
def cellsIn (bs ps pps : List Nat) : Loc → Prop
  | .base x => x ∈ bs
  | .props i => i ∈ ps
  | .patProps i => i ∈ pps

/-- Check that the listed cells are closed under pointers. -/
def cellsClosed (h : St) (bs ps pps : List Nat) : Bool :=
  (bs.all fun x => match h.shapeAt x with
    | some (.object f) => f.properties.all (ps.contains ·) && f.patternProperties.all (pps.contains ·)
    | some (.array f) => f.items.all (bs.contains ·)
    | some (.union l _) => (h.slice l).all (bs.contains ·)
    | some (.recursive y) => bs.contains y
    | _ => true) &&
  (ps.all fun i => (h.props (some i)).all fun p => bs.contains p.2.base) &&
  (pps.all fun i => (h.patProps (some i)).all fun p => bs.contains p.2.base)

theorem cells_stays {h : St} {bs ps pps : List Nat} (hc : cellsClosed h bs ps pps = true) :
    Stays h (cellsIn bs ps pps) := by
  simp only [cellsClosed, Bool.and_eq_true, List.all_eq_true, List.contains_iff_mem] at hc
  obtain ⟨⟨h1, h2⟩, h3⟩ := hc
  refine ⟨?_, ?_, ?_, ?_, ?_, fun {i p} hi hp => h2 i hi p hp, fun {i p} hi hp => h3 i hi p hp⟩
  · intro x f i hx hs hp
    have := h1 x hx
    simp only [hs, hp, Option.all_some, Bool.and_eq_true, List.contains_iff_mem] at this
    exact this.1
  · intro x f i hx hs hp
    have := h1 x hx
    simp only [hs, hp, Option.all_some, Bool.and_eq_true, List.contains_iff_mem] at this
    exact this.2
  · intro x f i hx hs hp
    have := h1 x hx
    simp only [hs, hp, Option.all_some, List.contains_iff_mem] at this
    exact this
  · intro x l e y hx hs hp
    have := h1 x hx
    simp only [hs, List.all_eq_true, List.contains_iff_mem] at this
    exact this y hp
  · intro x y hx hs
    have := h1 x hx
    simp only [hs, List.contains_iff_mem] at this
    exact this

/-- A cell outside a closed list is not part of the type. -/
theorem not_part_of_cells {h : St} (bs ps pps : List Nat) (hc : cellsClosed h bs ps pps = true) {x : Addr} (hx : x ∈ bs)
    {l : Loc} (hl : ¬ cellsIn bs ps pps l) : ¬ Part h x l := fun hp => hl ((cells_stays hc).part hx hp)

theorem apart_of_cells {h : St} (bs ps pps bs' ps' pps' : List Nat) (hc : cellsClosed h bs ps pps = true)
    (hc' : cellsClosed h bs' ps' pps' = true) {x y : Addr} (hx : x ∈ bs) (hy : y ∈ bs')
    (hd : bs.Disjoint bs' ∧ ps.Disjoint ps' ∧ pps.Disjoint pps') : Apart h x y := by
  intro l h1 h2
  have h3 := (cells_stays hc).part hx h1
  have h4 := (cells_stays hc').part hy h2
  cases l with
  | base x => exact hd.1 h3 h4
  | props i => exact hd.2.1 h3 h4
  | patProps i => exact hd.2.2 h3 h4

/-- What one successful `Inherit` guarantees under `MayNarrow`. -/
structure Narrowed (E : Ext) (h h' : St) (a b : Addr) : Prop where
  frame : Agree (fun l => ¬ Part h a l) h h'
  ppmaps : h'.ppmaps = h.ppmaps
  anys : ∀ x, h'.shapeAt x = some .any → h.shapeAt x = some .any
  idle : ∀ x, visitedAt h x = some false → h.shapeAt x ≠ some .any → visitedAt h' x = some false
  stays : Stays h' (fun l => Part h a l ∨ Part h b l)
  valid : ∀ v, Valid E h' a v → Valid E h b v

/-! ## One level of arrays and objects -/

theorem array_bounds_ok {f g r : ArrayF} (hb : f.inheritBounds g = .ok r) (hash : GoVal → Option Nat)
    {P Q : Addr → GoVal → Prop} {v : GoVal} (hv : ArrayOK hash P r v)
    (hi : ∀ j, g.items = some j → ∃ i, f.items = some i ∧ ∀ x, P i x → Q j x) : r.items = f.items ∧ ArrayOK hash Q g v := by
  simp only [ArrayF.inheritBounds] at hb
  obtain ⟨lo, e1, hb⟩ := Out.bind_ok.1 hb
  obtain ⟨up, e2, hb⟩ := Out.bind_ok.1 hb
  have key := between_inherit natLt (· ≤ ·) (by simp [natLt]) e1 e2
  have hbnd : r.minItems = lo ∧ r.maxItems = up ∧ r.items = f.items ∧ (g.uniqueItems = some true → r.uniqueItems = some true) := by
    cases hu : f.uniqueItems with
    | none => simp [hu] at hb; subst hb; simp
    | some b =>
      cases b <;> cases hu' : g.uniqueItems with
      | none => simp [hu, hu'] at hb; subst hb; simp
      | some b' => cases b' <;> simp [hu, hu'] at hb <;> subst hb <;> simp [hu]
  obtain ⟨e3, e4, e5, e6⟩ := hbnd
  obtain ⟨l, h1, h2, h3, h4⟩ := hv
  refine ⟨e5, l, h1, ?_, ?_, fun hu => h4 (e6 hu)⟩
  · rw [e3, e4] at h2
    exact ((key l.length (fun a b _ _ => natLt_law _ a b) (fun a b _ _ => natLt_law' _ a b)).1 h2).2
  · intro j hj x hx
    obtain ⟨i, h5, h6⟩ := hi j hj
    exact h6 x (h3 i (by rw [e5, h5]) x hx)

/-- The entries of the child's property map after inheriting: its own and the parent's that it does not declare. -/
def mergedProps (ps qs : OMap Property) : OMap Property := ps ++ qs.filter fun q => ps.all fun p => p.1 ≠ q.1

theorem mem_merged {ps qs : OMap Property} {q : String × Property} :
    q ∈ mergedProps ps qs ↔ q ∈ ps ∨ (q ∈ qs ∧ ∀ p ∈ ps, p.1 ≠ q.1) := by
  simp [mergedProps]

theorem Spec.Declares.mem {ps : OMap Property} {k : String} {p : Property} (h : Declares ps k p) : (k, p) ∈ ps := by
  obtain ⟨pre, post, h, _⟩ := h; rw [h]; simp

theorem declares_of_mem {ps : OMap Property} {k : String} (h : ∃ q ∈ ps, q.1 = k) : ∃ p, Declares ps k p := by
  by_contra hn
  cases hg : OMap.get ps k with
  | some p => exact hn ⟨p, (OMap.get_some_iff ps k p).1 hg⟩
  | none =>
    obtain ⟨q, hq, hk⟩ := h
    exact (OMap.get_none_iff ps k).1 hg q hq hk

theorem Spec.Declares.append_left {ps qs : OMap Property} {k : String} {p : Property} (h : Declares ps k p) :
    Declares (ps ++ qs) k p := by
  obtain ⟨pre, post, h, h'⟩ := h
  exact ⟨pre, post ++ qs, by rw [h]; simp, h'⟩

theorem Spec.Declares.append_right {ps qs : OMap Property} {k : String} {p : Property} (hn : ∀ q ∈ ps, q.1 ≠ k)
    (h : Declares qs k p) : Declares (ps ++ qs) k p := by
  obtain ⟨pre, post, h, h'⟩ := h
  refine ⟨ps ++ pre, post, by rw [h]; simp, ?_⟩
  intro q hq
  rcases List.mem_append.1 hq with hq | hq
  · exact hn q hq
  · exact h' q hq

theorem Spec.Declares.filter {qs : OMap Property} {k : String} {p : Property} (F : String × Property → Bool)
    (hF : F (k, p) = true) (h : Declares qs k p) : Declares (qs.filter F) k p := by
  obtain ⟨pre, post, h, h'⟩ := h
  refine ⟨pre.filter F, post.filter F, by rw [h]; simp [hF], ?_⟩
  intro q hq
  exact h' q (List.mem_of_mem_filter hq)

theorem object_level {isMatch : String → String → Bool} {h h' : St} {f g f1 f4 : ObjectF} {P P' : Addr → GoVal → Prop}
    {v : GoVal} (hown : f.inheritOwn g = .ok f1)
    (hadd : f4.additionalProperties = f1.additionalProperties) (hmin : f4.minProperties = f1.minProperties)
    (hmax : f4.maxProperties = f1.maxProperties)
    (hprops : h'.props f4.properties = mergedProps (h.props f.properties) (h.props g.properties))
    (hpat : h.patProps g.patternProperties = [] ∨ h'.patProps f4.patternProperties = h.patProps g.patternProperties)
    (hclosed : g.additionalProperties = some false → f.additionalProperties ≠ some true ∧
        ∀ p ∈ h.props f.properties, ∃ q ∈ h.props g.properties, q.1 = p.1)
    (hnew : ∀ p ∈ h.props f.properties, (∀ q ∈ h.props g.properties, q.1 ≠ p.1) →
        ∀ pp ∈ h.patProps g.patternProperties, isMatch pp.2.pattern p.1 = false)
    (hnd : ((h.props g.properties).map (·.1)).Nodup)
    (hpair : ∀ k tp sp, Declares (h.props f.properties) k tp → Declares (h.props g.properties) k sp →
      (sp.required = true → tp.required = true) ∧ ∀ x, P' tp.base x → P sp.base x)
    (hsrc : ∀ q ∈ h.props g.properties, (∀ p ∈ h.props f.properties, p.1 ≠ q.1) → ∀ x, P' q.2.base x → P q.2.base x)
    (hsrc' : ∀ q ∈ h.patProps g.patternProperties, ∀ x, P' q.2.base x → P q.2.base x)
    (hv : ObjectOK isMatch P' h' f4 v) : ObjectOK isMatch P h g v := by
  simp only [ObjectF.inheritOwn] at hown
  obtain ⟨lo, e1, hown⟩ := Out.bind_ok.1 hown
  obtain ⟨up, e2, hown⟩ := Out.bind_ok.1 hown
  simp at hown; subst hown
  simp only at hadd hmin hmax
  obtain ⟨m, h1, h2, h3, h4, h5⟩ := hv
  rw [hmin, hmax] at h2
  rw [hprops] at h3 h4 h5
  have hdq : ∀ q ∈ h.props g.properties, Declares (h.props g.properties) q.1 q.2 := by
    intro q hq
    obtain ⟨pre, post, hpp⟩ := List.append_of_mem hq
    refine ⟨pre, post, hpp, fun r hr hk => ?_⟩
    rw [hpp] at hnd
    simp only [List.map_append, List.map_cons] at hnd
    have := (List.nodup_append.1 hnd).2.2
    exact this _ (List.mem_map.2 ⟨r, hr, rfl⟩) _ List.mem_cons_self hk
  refine ⟨m, h1, ?_, ?_, ?_, ?_⟩
  · exact ((between_inherit natLt (· ≤ ·) (by simp [natLt]) e1 e2 m.length (fun a b _ _ => natLt_law _ a b)
      (fun a b _ _ => natLt_law' _ a b)).1 h2).2
  · intro q hq hreq
    by_cases hex : ∃ p ∈ h.props f.properties, p.1 = q.1
    · obtain ⟨tp, htp⟩ := declares_of_mem hex
      exact h3 (q.1, tp) (mem_merged.2 (Or.inl htp.mem)) ((hpair q.1 tp q.2 htp (hdq q hq)).1 hreq)
    · push Not at hex
      exact h3 q (mem_merged.2 (Or.inr ⟨hq, hex⟩)) hreq
  · intro k x sp hk hd
    by_cases hex : ∃ p ∈ h.props f.properties, p.1 = k
    · obtain ⟨tp, htp⟩ := declares_of_mem hex
      exact (hpair k tp sp htp hd).2 x (h4 k x tp hk htp.append_left)
    · push Not at hex
      exact hsrc (k, sp) hd.mem hex x (h4 k x sp hk (Spec.Declares.append_right hex (hd.filter _ (by simpa using hex))))
  · intro k x hk hn
    by_cases hex : ∃ p ∈ h.props f.properties, p.1 = k
    · obtain ⟨p, hp, rfl⟩ := hex
      refine ⟨fun hc => ?_, Or.inl (hnew p hp hn)⟩
      obtain ⟨q, hq, hqk⟩ := (hclosed hc).2 p hp
      exact hn q hq hqk
    · push Not at hex
      obtain ⟨h6, h7⟩ := h5 k x hk (by
        intro q hq
        rcases mem_merged.1 hq with hq | ⟨hq, _⟩
        · exact hex q hq
        · exact hn q hq)
      constructor
      · intro hc
        rw [hadd] at h6
        have := (hclosed hc).1
        cases hf : f.additionalProperties with
        | none => rw [hf] at h6; exact h6 hc
        | some b => cases b <;> simp_all
      · rcases hpat with hpat | hpat
        · rw [hpat]; exact Or.inl (by simp)
        · rw [hpat] at h7
          rcases h7 with h7 | ⟨p, h7, h8, h9⟩
          · exact Or.inl h7
          · exact Or.inr ⟨p, h7, h8, hsrc' p h7 x h9⟩

end GoRaml
