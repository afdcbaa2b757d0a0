import Verif.Lemmas.NarrowObject
import Verif.Props.InheritScalar

/-!
# Properties C16, C19, C20: inheritance between arrays, objects and unions

`inherit n a b h = (.ok r, h')`: the call `a.Inherit(b)` in heap `h` returned `r` and left heap `h'`.
-/

namespace GoRaml.Props

open GoRaml Spec

/-! ## C16 -/

/-- `Inherit` without unions returns the child or (for an any-typed parent that is already visited) the parent. -/
theorem narrow_result {E : Ext} {n : Nat} {h h' : St} {a b r : Addr} (hm : MayNarrow E.reMatch h a b)
    (hr : inherit n a b h = (.ok r, h')) : r = a ∨ r = b := by
  cases n with
  | zero => simp [inherit, M.diverge] at hr
  | succ n =>
    have anyc : h.shapeAt b = some .any → r = a ∨ r = b := by
      intro hb
      obtain ⟨bb, hbb, hbb'⟩ := base_of_shape hb
      cases hba : h.base a with
      | none =>
        simp only [inherit] at hr
        obtain ⟨x, h1, hr1, _⟩ := M.bind_ok.1 hr
        simp [Heap.getBase, hba] at hr1
      | some ba =>
        cases hv : bb.visited with
        | true =>
          simp only [inherit] at hr
          rw [M.bind_of_ok (show Heap.getBase a h = (.ok ba, h) by simp [Heap.getBase, hba]),
            M.bind_of_ok (show Heap.getBase b h = (.ok bb, h) by simp [Heap.getBase, hbb])] at hr
          simp only [hv, if_true] at hr
          exact Or.inr (M.ret_ok.1 hr).1.symm
        | false =>
          obtain ⟨h1, c, hvis, hrun⟩ := inherit_prelude hba hbb hv n
          rw [hrun] at hr
          obtain ⟨b1, hb1, _⟩ := c.type hba
          obtain ⟨b2, hb2, hb2'⟩ := base_of_shape (show h1.shapeAt b = some .any by rw [c.shapeAt, hb])
          unfold inheritDispatch at hr
          rw [M.bind_of_ok (show Heap.getBase a h1 = (.ok b1, h1) by simp [Heap.getBase, hb1]),
            M.bind_of_ok (show Heap.getBase b h1 = (.ok b2, h1) by simp [Heap.getBase, hb2])] at hr
          rw [hb2'] at hr
          exact Or.inl (M.ret_ok.1 hr).1.symm
    cases hm with
    | any hb => exact anyc hb
    | @scalar _ _ t s ha hb hid hn =>
      by_cases hs : s = .any
      · subst hs; exact anyc hb
      · have hs2 : ∀ l e, s ≠ .union l e := by
          intro l e e'; subst e'; cases t <;> exact hn
        have ht2 : ∀ l e, t ≠ .union l e := by
          intro l e e'; subst e'; cases s <;> exact hn
        exact Or.inl (inherit_homog ha hb (idle_visited hid) ht2 hs hs2 hr).1
    | @array _ _ f g ha hb hid hm hsep =>
      exact Or.inl (inherit_homog ha hb (idle_visited hid) (by simp) (by simp) (by simp) hr).1
    | @object _ _ f g ha hb hid hclosed hno hnew hnd hptr hm hsep hdis =>
      exact Or.inl (inherit_homog ha hb (idle_visited hid) (by simp) (by simp) (by simp) hr).1

/-- C16: whenever `a.Inherit(b)` succeeds on types that share no cells and meet the conditions of `MayNarrow` (arrays and
objects nested to any depth, no unions), every value that belongs to the child afterwards belongs to the parent, and the
parent itself keeps its values.  The same holds for the outcome of `Validate` on run-time values when the heap is closed
and guarded (where validation terminates, C11). -/
theorem c16_inherit_narrows (E : Ext) {n : Nat} {h h' : St} {a b r : Addr} (hm : MayNarrow E.reMatch h a b)
    (hap : Apart h a b) (hrun : inherit n a b h = (.ok r, h')) :
    (∀ v, Valid E h' r v → Valid E h b v) ∧ (∀ v, Valid E h' a v → Valid E h b v) ∧
    (∀ v, Valid E h' b v ↔ Valid E h b v) ∧
    (Closed h → Guarded h → b < h.bases.length → ∀ v, GoValue v → Accepts E h' a v → Accepts E h b v) := by
  have N := inherit_narrow E n h a b h' r hm hap hrun
  have hb : ∀ v, Valid E h' b v ↔ Valid E h b v := fun v =>
    valid_agree (N.frame.mono fun l hl hl' => hap l hl' hl) v
  refine ⟨?_, N.valid, hb, ?_⟩
  · rcases narrow_result hm hrun with rfl | rfl
    · exact N.valid
    · exact fun v hv => (hb v).1 hv
  · intro hc hg hbl v hv ⟨k, hk⟩
    exact (accepts_iff_valid E hc hg hbl hv).1.2 (N.valid v ((validate_sound E h' k a v hv).1 hk))

/-- C16: types that share no cell with the child keep their values. -/
theorem c16_others_unchanged (E : Ext) {n : Nat} {h h' : St} {a b r x : Addr} (hm : MayNarrow E.reMatch h a b)
    (hap : Apart h a b) (hrun : inherit n a b h = (.ok r, h')) (hx : Apart h a x) (v : GoVal) :
    Valid E h' x v ↔ Valid E h x v :=
  valid_agree ((inherit_narrow E n h a b h' r hm hap hrun).frame.mono fun l hl hl' => hx l hl' hl) v

/-- A child object (0) with properties `tags` (array of integers, 1 and 2) and `extra` (3), and its parent object (4) with
required-ness and bounds of its own: `tags` (array of numbers up to 9, 5 and 6) and `id` (7). -/
def exInherit : St :=
  { bases := [{ shape := some (.object { properties := some 0 }) }, { shape := some (.array { items := some 2 }) },
      { shape := some (.integer { minimum := some 1 }) }, { shape := some (.boolean none) },
      { shape := some (.object { properties := some 1, maxProperties := some 3 }) },
      { shape := some (.array { items := some 6, minItems := some 1 }) }, { shape := some (.integer { maximum := some 9 }) },
      { shape := some (.string {}) }]
    pmaps := [[("tags", ⟨"tags", 1, true⟩), ("extra", ⟨"extra", 3, false⟩)],
      [("tags", ⟨"tags", 5, true⟩), ("id", ⟨"id", 7, true⟩)]] }

theorem exInherit_apart : Apart exInherit 0 4 :=
  apart_of_cells [0, 1, 2, 3] [0] [] [4, 5, 6, 7] [1] [] (by decide +kernel) (by decide +kernel) (by decide) (by decide)
    (by simp)

theorem exInherit_may : MayNarrow exE.reMatch exInherit 0 4 := by
  have decl0 : ∀ k p, Declares (exInherit.props (some 0)) k p →
      (k = "tags" ∧ p = ⟨"tags", 1, true⟩) ∨ (k = "extra" ∧ p = ⟨"extra", 3, false⟩) := by
    intro k p hd
    have := hd.mem
    simpa [St.props, exInherit] using this
  have decl1 : ∀ k p, Declares (exInherit.props (some 1)) k p →
      (k = "tags" ∧ p = ⟨"tags", 5, true⟩) ∨ (k = "id" ∧ p = ⟨"id", 7, true⟩) := by
    intro k p hd
    have := hd.mem
    simpa [St.props, exInherit] using this
  refine .object (f := { properties := some 0 }) (g := { properties := some 1, maxProperties := some 3 }) rfl rfl
    ⟨_, rfl, rfl⟩ (by simp) (Or.inl rfl) (by simp [St.patProps]) (by decide +kernel) ?_ ?_ ?_ ?_
  · intro i hi; cases hi; exact ⟨_, rfl⟩
  · intro k tp sp h1 h2
    rcases decl0 k tp h1 with ⟨rfl, rfl⟩ | ⟨rfl, rfl⟩ <;> rcases decl1 _ sp h2 with ⟨h3, rfl⟩ | ⟨h3, rfl⟩ <;> simp at h3
    refine .array (f := { items := some 2 }) (g := { items := some 6, minItems := some 1 }) rfl rfl ⟨_, rfl, rfl⟩ ?_ ?_
    · intro i j hi hj; cases hi; cases hj
      exact .scalar (t := .integer { minimum := some 1 }) (s := .integer { maximum := some 9 }) rfl rfl ⟨_, rfl, rfl⟩ trivial
    · intro i j hi hj; cases hi; cases hj
      exact ⟨not_part_of_cells [2] [] [] (by decide +kernel) (by decide) (by simp [cellsIn]),
        not_part_of_cells [6] [] [] (by decide +kernel) (by decide) (by simp [cellsIn])⟩
  · intro k tp sp h1 h2
    rcases decl0 k tp h1 with ⟨rfl, rfl⟩ | ⟨rfl, rfl⟩ <;> rcases decl1 _ sp h2 with ⟨h3, rfl⟩ | ⟨h3, rfl⟩ <;> simp at h3
    refine ⟨not_part_of_cells [1, 2] [] [] (by decide +kernel) (by decide) (by simp [cellsIn]), ?_,
      not_part_of_cells [5, 6] [] [] (by decide +kernel) (by decide) (by simp [cellsIn])⟩
    intro i hi; cases hi
    exact not_part_of_cells [1, 2] [] [] (by decide +kernel) (by decide) (by simp [cellsIn])
  · intro k k' tp tp' hk h1 h2 hq hq'
    have hid : ∀ k, (∃ q ∈ exInherit.props (some 1), q.1 = k) → k = "tags" ∨ k = "id" := by
      rintro k ⟨q, hq, rfl⟩
      simp [St.props, exInherit] at hq
      rcases hq with rfl | rfl <;> simp
    rcases decl0 k tp h1 with ⟨rfl, rfl⟩ | ⟨rfl, rfl⟩ <;> rcases decl0 k' tp' h2 with ⟨rfl, rfl⟩ | ⟨rfl, rfl⟩
    · exact absurd rfl hk
    · have := hid _ hq'; simp at this
    · have := hid _ hq; simp at this
    · exact absurd rfl hk

/-- The conditions of C16 are met by nested types, inheritance succeeds, and the result is a proper narrowing: one value is
accepted, values violating a bound of either side are rejected. -/
example : ∃ h', MayNarrow exE.reMatch exInherit 0 4 ∧ Apart exInherit 0 4 ∧ inherit 3 0 4 exInherit = (.ok 0, h') ∧
    Accepts exE h' 0 (.map [("tags", .arr [.int 4]), ("id", .str "x")]) ∧
    Rejects exE h' 0 (.map [("tags", .arr [.int 4])]) ∧
    Rejects exE h' 0 (.map [("tags", .arr [.int 10]), ("id", .str "x")]) ∧
    Rejects exE h' 0 (.map [("tags", .arr []), ("id", .str "x")]) := by
  refine ⟨_, exInherit_may, exInherit_apart, M.run_ok (by decide +kernel), ⟨4, by decide +kernel⟩,
    ⟨4, "missing required properties", by decide +kernel⟩, ⟨4, "value must be less than", by decide +kernel⟩,
    ⟨4, "array must have at least", by decide +kernel⟩⟩

/-! ### The provisos are necessary -/

/-- C16: re-declaring `additionalProperties: true` opens a closed parent. -/
theorem c16_reopened_widens : ∃ (h h' : St) (v : GoVal), inherit 1 0 1 h = (.ok 0, h') ∧ Idle h 1 ∧ Apart h 0 1 ∧
    h.shapeAt 0 = some (.object { additionalProperties := some true }) ∧
    h.shapeAt 1 = some (.object { additionalProperties := some false }) ∧ Accepts exE h' 0 v ∧ Rejects exE h' 1 v := by
  refine ⟨heapOf [.object { additionalProperties := some true }, .object { additionalProperties := some false }], _,
    .map [("x", .int 1)], rfl, ⟨_, rfl, rfl⟩, ?_, rfl, rfl, ⟨2, by decide +kernel⟩,
    ⟨2, "unexpected additional property", by decide +kernel⟩⟩
  exact apart_of_cells [0] [] [] [1] [] [] (by decide +kernel) (by decide +kernel) (by decide) (by decide) (by simp)

/-- C16: a child may add a property to a closed parent. -/
theorem c16_new_property_in_closed_parent_widens : ∃ (h h' : St) (v : GoVal), inherit 1 0 1 h = (.ok 0, h') ∧ Idle h 1 ∧
    Apart h 0 1 ∧ h.shapeAt 0 = some (.object { properties := some 0 }) ∧ h.props (some 0) = [("x", ⟨"x", 2, false⟩)] ∧
    h.shapeAt 1 = some (.object { additionalProperties := some false }) ∧ Accepts exE h' 0 v ∧ Rejects exE h' 1 v := by
  refine ⟨{ heapOf [.object { properties := some 0 }, .object { additionalProperties := some false }, .any] with
      pmaps := [[("x", ⟨"x", 2, false⟩)]] }, _, .map [("x", .int 1)], M.run_ok (by decide +kernel), ⟨_, rfl, rfl⟩, ?_, rfl, rfl, rfl,
      ⟨2, by decide +kernel⟩, ⟨2, "unexpected additional property", by decide +kernel⟩⟩
  exact apart_of_cells [0, 2] [0] [] [1] [] [] (by decide +kernel) (by decide +kernel) (by decide) (by decide) (by simp)

/-- C16: a child with pattern properties of its own gets around the parent's: the first pattern that accepts wins. -/
theorem c16_redeclared_pattern_widens : ∃ (h h' : St) (v : GoVal), inherit 2 0 1 h = (.ok 0, h') ∧ Idle h 1 ∧
    Apart h 0 1 ∧ h.shapeAt 0 = some (.object { patternProperties := some 0 }) ∧
    h.shapeAt 1 = some (.object { patternProperties := some 1 }) ∧ h.patProps (some 0) = [("/k/", ⟨"x", 2⟩)] ∧
    h.patProps (some 1) = [("/x/", ⟨"x", 3⟩)] ∧ Accepts exE h' 0 v ∧ Rejects exE h' 1 v := by
  refine ⟨{ heapOf [.object { patternProperties := some 0 }, .object { patternProperties := some 1 }, .any, .string {}] with
      ppmaps := [[("/k/", ⟨"x", 2⟩)], [("/x/", ⟨"x", 3⟩)]] }, _, .map [("x", .int 1)], M.run_ok (by decide +kernel),
      ⟨_, rfl, rfl⟩, ?_, rfl, rfl, rfl, rfl, ⟨2, by decide +kernel⟩, ⟨2, "validate pattern property", by decide +kernel⟩⟩
  exact apart_of_cells [0, 2] [] [0] [1, 3] [] [1] (by decide +kernel) (by decide +kernel) (by decide) (by decide) (by simp)

/-- C16: a new property of the child that matches a pattern property of the parent escapes it. -/
theorem c16_new_property_under_pattern_widens : ∃ (h h' : St) (v : GoVal), inherit 2 0 1 h = (.ok 0, h') ∧ Idle h 1 ∧
    Apart h 0 1 ∧ h.shapeAt 0 = some (.object { properties := some 0 }) ∧
    h.shapeAt 1 = some (.object { patternProperties := some 0 }) ∧ h.props (some 0) = [("x", ⟨"x", 2, false⟩)] ∧
    h.patProps (some 0) = [("/x/", ⟨"x", 3⟩)] ∧ Accepts exE h' 0 v ∧ Rejects exE h' 1 v := by
  refine ⟨{ heapOf [.object { properties := some 0 }, .object { patternProperties := some 0 }, .any, .string {}] with
      pmaps := [[("x", ⟨"x", 2, false⟩)]], ppmaps := [[("/x/", ⟨"x", 3⟩)]] }, _, .map [("x", .int 1)],
      M.run_ok (by decide +kernel), ⟨_, rfl, rfl⟩, ?_, rfl, rfl, rfl, rfl, ⟨2, by decide +kernel⟩,
      ⟨2, "validate pattern property", by decide +kernel⟩⟩
  exact apart_of_cells [0, 2] [0] [] [1, 3] [] [0] (by decide +kernel) (by decide +kernel) (by decide) (by decide) (by simp)

end GoRaml.Props
