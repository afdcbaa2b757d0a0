import Verif.Lemmas.Inherit
import Verif.Spec.Inherit
import Verif.Props.Validate

/-!
# Properties C12 - C15, C21: inheritance between scalar types

`inherit n a b h = (.ok r, h')`: the call `a.Inherit(b)` in heap `h` returned `r` and left heap `h'`.
-/

namespace GoRaml.Props

open GoRaml Spec

theorem idle_visited {h : St} {b : Addr} (hi : Idle h b) : visitedAt h b = some false := by
  obtain ⟨x, h1, h2⟩ := hi
  simp [visitedAt, h1, h2]

/-- A finished scalar inheritance is the scalar method. -/
theorem leaf_run {a b r : Addr} {h h' : St} {t s : Shape} {n : Nat} (ha : h.shapeAt a = some t)
    (hb : h.shapeAt b = some s) (hi : Idle h b) (ht : IsScalarTarget t) (hs1 : s ≠ .any)
    (hs2 : ∀ l e, s ≠ .union l e) (hrun : inherit n a b h = (.ok r, h')) :
    r = a ∧ ∃ u, leafInherit t s = .ok u ∧ h'.shapeAt a = some u ∧ ∀ x, x ≠ a → h'.shapeAt x = h.shapeAt x := by
  cases n with
  | zero => simp [inherit, M.diverge] at hrun
  | succ n =>
    have := inherit_leaf ha hb (idle_visited hi) ht hs1 hs2 n
    cases hl : leafInherit t s with
    | ok u =>
      rw [hl] at this
      obtain ⟨h2, e, h3, h4, _⟩ := this
      rw [hrun] at e
      simp at e
      obtain ⟨rfl, rfl⟩ := e
      exact ⟨rfl, u, rfl, h3, h4⟩
    | err m => rw [hl] at this; obtain ⟨h2, e⟩ := this; rw [hrun] at e; simp at e
    | panic m => rw [hl] at this; obtain ⟨h2, e⟩ := this; rw [hrun] at e; simp at e
    | diverge => rw [hl] at this; obtain ⟨h2, e⟩ := this; rw [hrun] at e; simp at e

theorem scalar_of {v : GoVal} (h : (∀ l, v ≠ .arr l) ∧ (∀ m, v ≠ .map m)) : v.isScalarVal = true := by
  cases v <;> simp_all [GoVal.isScalarVal]

/-! ## C12 -/

/-- C12: after a successful `Inherit` the integer type accepts exactly the values that both the original child and the
parent accept; no other type's shape is changed. -/
theorem c12_integer_narrows (E : Ext) {a b r : Addr} {h h' : St} {f g : IntegerF} {n : Nat}
    (ha : h.shapeAt a = some (.integer f)) (hb : h.shapeAt b = some (.integer g)) (hi : Idle h b)
    (hrun : inherit n a b h = (.ok r, h')) :
    r = a ∧ (∀ v, Accepts E h' a v ↔ Accepts E h a v ∧ Accepts E h b v) ∧
      ∀ x, x ≠ a → h'.shapeAt x = h.shapeAt x := by
  obtain ⟨h1, u, h2, h3, h4⟩ := leaf_run ha hb hi trivial (by simp) (by simp) hrun
  refine ⟨h1, fun v => ?_, h4⟩
  simp only [leafInherit] at h2
  obtain ⟨rf, h5, h6⟩ := Out.bind_ok.1 h2
  simp at h6; subst h6
  rw [leaf_accepts h3 trivial, leaf_accepts ha trivial, leaf_accepts hb trivial]
  exact integer_inherit_ok E h5 v

/-- C12: inheritance between integer types returns an error exactly when the child's minimum is below the parent's, its
maximum above, its enum not a subset, or its format of another width; otherwise it succeeds. -/
theorem c12_integer_fails_iff {a b : Addr} {h : St} {f g : IntegerF} (n : Nat)
    (ha : h.shapeAt a = some (.integer f)) (hb : h.shapeAt b = some (.integer g)) (hi : Idle h b)
    (hsc : ScalarEnum f.enum) :
    let bad := Loosened (· < ·) f.minimum g.minimum ∨ Loosened (· > ·) f.maximum g.maximum ∨
      EnumLoosened f.enum g.enum ∨ Loosened (fun c p => IntegerWidth c ≠ IntegerWidth p) f.format g.format
    (bad → ∃ m h', inherit (n + 1) a b h = (.err m, h')) ∧
    (¬ bad → ∃ h', inherit (n + 1) a b h = (.ok a, h')) := by
  have hfmt : ∀ s : String, ∃ c : Int, (integerFormatClass s).getD 0 = c ∧
      ((c = 0 ∧ IntegerWidth s = 8) ∨ (c = 1 ∧ IntegerWidth s = 16) ∨ (c = 2 ∧ IntegerWidth s = 32) ∨
        (c = 3 ∧ IntegerWidth s = 64)) := by
    intro s
    refine ⟨_, rfl, ?_⟩
    by_cases h1 : s = "int8"; · subst h1; decide
    by_cases h2 : s = "int16"; · subst h2; decide
    by_cases h3 : s = "int32"; · subst h3; decide
    by_cases h4 : s = "int"; · subst h4; decide
    by_cases h5 : s = "int64"; · subst h5; decide
    by_cases h6 : s = "long"; · subst h6; decide
    left
    simp [integerFormatClass, IntegerWidth, *]
  have hw : ∀ s t : String, (integerFormatClass s).getD 0 ≠ (integerFormatClass t).getD 0 ↔
      IntegerWidth s ≠ IntegerWidth t := by
    intro s t
    obtain ⟨c, h1, h2⟩ := hfmt s
    obtain ⟨d, h3, h4⟩ := hfmt t
    rw [h1, h3]
    omega
  have key := inherit_leaf ha hb (idle_visited hi) trivial (by simp) (by simp) n
  have hl : (∃ m, f.inherit g = .err m ∧ (Loosened (· < ·) f.minimum g.minimum ∨ Loosened (· > ·) f.maximum g.maximum ∨
      EnumLoosened f.enum g.enum ∨ Loosened (fun c p => IntegerWidth c ≠ IntegerWidth p) f.format g.format)) ∨
      (∃ u, f.inherit g = .ok u ∧ ¬ (Loosened (· < ·) f.minimum g.minimum ∨ Loosened (· > ·) f.maximum g.maximum ∨
      EnumLoosened f.enum g.enum ∨ Loosened (fun c p => IntegerWidth c ≠ IntegerWidth p) f.format g.format)) := by
    unfold IntegerF.inherit
    rcases inheritLower_cases intLt f.minimum g.minimum with ⟨lo, e1, n1⟩ | ⟨m, e1, p⟩
    swap
    · left
      refine ⟨m, by rw [e1]; rfl, Or.inl ?_⟩
      obtain ⟨x, y, hx, hy, hxy⟩ := p
      exact ⟨x, y, hx, hy, by simpa [intLt] using hxy⟩
    rw [e1]
    simp only [Out.bind]
    rcases inheritUpper_cases intLt f.maximum g.maximum with ⟨up, e2, n2⟩ | ⟨m, e2, p⟩
    swap
    · left
      refine ⟨m, by rw [e2], Or.inr (Or.inl ?_)⟩
      obtain ⟨x, y, hx, hy, hxy⟩ := p
      exact ⟨x, y, hx, hy, by simpa [intLt] using hxy⟩
    rw [e2]
    simp only
    obtain ⟨hen1, hen2⟩ := inheritEnum_decides (t := f.enum) (s := g.enum)
      (fun es hes v hv => scalar_of (hsc es hes v hv))
    rcases hen1 with ⟨en, e3⟩ | ⟨m, e3⟩
    swap
    · left
      refine ⟨m, by rw [e3], Or.inr (Or.inr (Or.inl ?_))⟩
      exact hen2.1 ⟨m, e3⟩
    rw [e3] at hen2 ⊢
    simp only
    have n3 : ¬ EnumLoosened f.enum g.enum := by
      intro hc; obtain ⟨m, hm⟩ := hen2.2 hc; simp at hm
    by_cases hb4 : Loosened (fun c p => IntegerWidth c ≠ IntegerWidth p) f.format g.format
    · left
      obtain ⟨x, y, hx, hy, hxy⟩ := hb4
      refine ⟨"format constraint violation", ?_, Or.inr (Or.inr (Or.inr ⟨x, y, hx, hy, hxy⟩))⟩
      simp only [inheritIntegerFormat, hx, hy]
      rw [if_pos ((hw x y).2 hxy)]
    · right
      have : ∃ fm, inheritIntegerFormat f.format g.format = .ok fm := by
        cases hff : f.format with
        | none => exact ⟨_, rfl⟩
        | some x =>
          cases hgf : g.format with
          | none => exact ⟨_, rfl⟩
          | some y =>
            refine ⟨some x, ?_⟩
            simp only [inheritIntegerFormat]
            rw [if_neg]
            intro hc
            exact hb4 ⟨x, y, hff, hgf, (hw x y).1 hc⟩
      obtain ⟨fm, e4⟩ := this
      rw [e4]
      refine ⟨_, rfl, ?_⟩
      rintro (⟨x, y, hx, hy, hxy⟩ | ⟨x, y, hx, hy, hxy⟩ | hc | hc)
      · exact n1 ⟨x, y, hx, hy, by simpa [intLt] using hxy⟩
      · exact n2 ⟨x, y, hx, hy, by simpa [intLt] using hxy⟩
      · exact n3 hc
      · exact hb4 hc
  intro bad
  rcases hl with ⟨m, hm, hbad⟩ | ⟨u, hu, hgood⟩
  · simp only [leafInherit, hm, Out.bind] at key
    obtain ⟨h', hr⟩ := key
    exact ⟨fun _ => ⟨m, h', hr⟩, fun hn => absurd hbad hn⟩
  · simp only [leafInherit, hu, Out.bind] at key
    obtain ⟨h', hr, _⟩ := key
    exact ⟨fun hb => absurd hb hgood, fun _ => ⟨h', hr⟩⟩

/-- A concrete pair: the child keeps its own minimum and takes the parent's maximum; a lower minimum is refused. -/
example : ∃ h', inherit 1 0 1 (heapOf [.integer { minimum := some 5 }, .integer { minimum := some 1, maximum := some 9 }])
      = (.ok 0, h') ∧ Accepts exE h' 0 (.int 7) ∧ Rejects exE h' 0 (.int 10) ∧ Rejects exE h' 0 (.int 3) := by
  refine ⟨_, rfl, ⟨1, by decide +kernel⟩, ⟨1, "value must be less than", by decide +kernel⟩,
    ⟨1, "value must be greater than", by decide +kernel⟩⟩

example : ∃ h', inherit 1 0 1 (heapOf [.integer { minimum := some 0 }, .integer { minimum := some 1 }])
    = (.err "lower bound constraint violation", h') := ⟨_, rfl⟩

/-! ## C13 -/

/-- C13: after a successful `Inherit`, a number type whose own bounds are not NaN accepts exactly the values that both the
original child and the parent accept. -/
theorem c13_number_narrows (E : Ext) {a b r : Addr} {h h' : St} {f g : NumberF} {n : Nat}
    (ha : h.shapeAt a = some (.number f)) (hb : h.shapeAt b = some (.number g)) (hi : Idle h b)
    (hmin : f.minimum ≠ some .nan) (hmax : f.maximum ≠ some .nan) (hrun : inherit n a b h = (.ok r, h')) :
    r = a ∧ (∀ v, Accepts E h' a v ↔ Accepts E h a v ∧ Accepts E h b v) ∧
      ∀ x, x ≠ a → h'.shapeAt x = h.shapeAt x := by
  obtain ⟨h1, u, h2, h3, h4⟩ := leaf_run ha hb hi trivial (by simp) (by simp) hrun
  refine ⟨h1, fun v => ?_, h4⟩
  simp only [leafInherit] at h2
  obtain ⟨rf, h5, h6⟩ := Out.bind_ok.1 h2
  simp at h6; subst h6
  rw [leaf_accepts h3 trivial, leaf_accepts ha trivial, leaf_accepts hb trivial]
  exact number_inherit_ok E hmin hmax h5 v

/-- C13: with a NaN bound the child is accepted and allows values below the parent's minimum. -/
theorem c13_nan_bound_widens : ∃ (h h' : St) (v : GoVal),
    inherit 1 0 1 h = (.ok 0, h') ∧ Idle h 1 ∧ h.shapeAt 0 = some (.number { minimum := some .nan }) ∧
    h.shapeAt 1 = some (.number { minimum := some (.fin 3) }) ∧
    Accepts exE h' 0 v ∧ Rejects exE h' 1 v := by
  refine ⟨heapOf [.number { minimum := some .nan }, .number { minimum := some (.fin 3) }], _, .int 1, rfl,
    ⟨_, rfl, rfl⟩, rfl, rfl, ⟨1, by decide +kernel⟩, ⟨1, "value must be greater than", by decide +kernel⟩⟩

example : ∃ h', inherit 1 0 1 (heapOf [.number { maximum := some (.fin 5) }, .number { minimum := some (.fin (1 / 2)) }])
      = (.ok 0, h') ∧ Accepts exE h' 0 (.float (.fin (3 / 2))) ∧ Rejects exE h' 0 (.int 0) := by
  refine ⟨_, rfl, ⟨1, by decide +kernel⟩, ⟨1, "value must be greater than", by decide +kernel⟩⟩

/-! ## C14 -/

/-- C14: after a successful `Inherit`, a string type accepts exactly the values that the original child accepts and that
belong to the parent type, where the parent's pattern is dropped if the child has its own. -/
theorem c14_string_narrows (E : Ext) {a b r : Addr} {h h' : St} {f g : StringF} {n : Nat}
    (ha : h.shapeAt a = some (.string f)) (hb : h.shapeAt b = some (.string g)) (hi : Idle h b)
    (hrun : inherit n a b h = (.ok r, h')) :
    r = a ∧ (∀ v, Accepts E h' a v ↔ Accepts E h a v ∧
        StringOK E.reMatch { g with pattern := if f.pattern = none then g.pattern else none } v) ∧
      (f.pattern = none ∨ g.pattern = none → ∀ v, Accepts E h' a v ↔ Accepts E h a v ∧ Accepts E h b v) ∧
      ∀ x, x ≠ a → h'.shapeAt x = h.shapeAt x := by
  obtain ⟨h1, u, h2, h3, h4⟩ := leaf_run ha hb hi trivial (by simp) (by simp) hrun
  simp only [leafInherit] at h2
  obtain ⟨rf, h5, h6⟩ := Out.bind_ok.1 h2
  simp at h6; subst h6
  have key : ∀ v, Accepts E h' a v ↔ Accepts E h a v ∧
        StringOK E.reMatch { g with pattern := if f.pattern = none then g.pattern else none } v := by
    intro v
    rw [leaf_accepts h3 trivial, leaf_accepts ha trivial, ← (string_decides E _ v).ok_iff]
    exact string_inherit_ok E h5 v
  refine ⟨h1, key, ?_, h4⟩
  intro hp v
  rw [key, leaf_accepts (E := E) hb trivial]
  simp only [validateShape]
  rw [(string_decides E g v).ok_iff]
  have : ({ g with pattern := if f.pattern = none then g.pattern else none } : StringF) = g := by
    rcases hp with hp | hp
    · simp [hp]
    · cases g; simp_all
  rw [this]

/-- C14: a child with its own pattern may accept strings that the parent's pattern rejects. -/
theorem c14_pattern_widens : ∃ (h h' : St) (v : GoVal),
    inherit 1 0 1 h = (.ok 0, h') ∧ Idle h 1 ∧ h.shapeAt 0 = some (.string { pattern := some "x" }) ∧
    h.shapeAt 1 = some (.string { pattern := some "y" }) ∧
    Accepts exE h' 0 v ∧ Rejects exE h' 1 v := by
  refine ⟨heapOf [.string { pattern := some "x" }, .string { pattern := some "y" }], _, .str "x", rfl,
    ⟨_, rfl, rfl⟩, rfl, rfl, ⟨1, by decide +kernel⟩, ⟨1, "must match pattern", by decide +kernel⟩⟩

/-- C14: file types. -/
theorem c14_file_narrows (E : Ext) {a b r : Addr} {h h' : St} {f g : FileF} {n : Nat}
    (ha : h.shapeAt a = some (.file f)) (hb : h.shapeAt b = some (.file g)) (hi : Idle h b)
    (hrun : inherit n a b h = (.ok r, h')) :
    r = a ∧ (∀ v, Accepts E h' a v ↔ Accepts E h a v ∧ Accepts E h b v) ∧
      ∀ x, x ≠ a → h'.shapeAt x = h.shapeAt x := by
  obtain ⟨h1, u, h2, h3, h4⟩ := leaf_run ha hb hi trivial (by simp) (by simp) hrun
  refine ⟨h1, fun v => ?_, h4⟩
  simp only [leafInherit] at h2
  obtain ⟨rf, h5, h6⟩ := Out.bind_ok.1 h2
  simp at h6; subst h6
  rw [leaf_accepts h3 trivial, leaf_accepts ha trivial, leaf_accepts hb trivial]
  exact file_inherit_ok h5 v

example : ∃ h', inherit 1 0 1 (heapOf [.string { minLength := some 2 },
      .string { pattern := some "abc", enum := some [.str "abc", .str "d"] }])
      = (.ok 0, h') ∧ Accepts exE h' 0 (.str "abc") ∧ Rejects exE h' 0 (.str "d") := by
  refine ⟨_, rfl, ⟨1, by decide +kernel⟩, ⟨1, "length must be greater than", by decide +kernel⟩⟩

/-! ## C15 -/

/-- C15: boolean types. -/
theorem c15_boolean_narrows (E : Ext) {a b r : Addr} {h h' : St} {e e' : Option (List GoVal)} {n : Nat}
    (ha : h.shapeAt a = some (.boolean e)) (hb : h.shapeAt b = some (.boolean e')) (hi : Idle h b)
    (hrun : inherit n a b h = (.ok r, h')) :
    r = a ∧ ∀ v, Accepts E h' a v ↔ Accepts E h a v ∧ Accepts E h b v := by
  obtain ⟨h1, u, h2, h3, h4⟩ := leaf_run ha hb hi trivial (by simp) (by simp) hrun
  refine ⟨h1, fun v => ?_⟩
  simp only [leafInherit] at h2
  obtain ⟨rf, h5, h6⟩ := Out.bind_ok.1 h2
  simp at h6; subst h6
  rw [leaf_accepts h3 trivial, leaf_accepts ha trivial, leaf_accepts hb trivial]
  exact boolean_inherit_ok h5 v

/-- C15: nil, date-only, time-only and datetime-only types have no facets: inheritance succeeds and changes nothing. -/
theorem c15_plain_narrows (E : Ext) {a b : Addr} {h : St} {t : Shape} (n : Nat)
    (ht : t = .nil ∨ t = .dateOnly ∨ t = .timeOnly ∨ t = .datetimeOnly) (ha : h.shapeAt a = some t)
    (hb : h.shapeAt b = some t) (hi : Idle h b) :
    ∃ h', inherit (n + 1) a b h = (.ok a, h') ∧
      ∀ v, (Accepts E h' a v ↔ Accepts E h a v) ∧ (Accepts E h' a v ↔ Accepts E h b v) := by
  have hu : leafInherit t t = .ok t ∧ IsLeaf t ∧ IsScalarTarget t := by
    rcases ht with rfl | rfl | rfl | rfl <;> exact ⟨rfl, trivial, trivial⟩
  have key := inherit_leaf ha hb (idle_visited hi) hu.2.2 (by rcases ht with rfl | rfl | rfl | rfl <;> simp)
    (by rcases ht with rfl | rfl | rfl | rfl <;> simp) n
  rw [hu.1] at key
  obtain ⟨h', hr, h1, _⟩ := key
  refine ⟨h', hr, fun v => ?_⟩
  rw [leaf_accepts h1 hu.2.1, leaf_accepts ha hu.2.1, leaf_accepts hb hu.2.1]
  simp

/-- C15: datetime types; if the parent declares its format or the child declares none, the result accepts exactly
what the parent accepts. -/
theorem c15_datetime_narrows (E : Ext) {a b r : Addr} {h h' : St} {f g : Option String} {n : Nat}
    (ha : h.shapeAt a = some (.datetime f)) (hb : h.shapeAt b = some (.datetime g)) (hi : Idle h b)
    (hg : g = none → f = none) (hrun : inherit n a b h = (.ok r, h')) :
    r = a ∧ ∀ v, Accepts E h' a v ↔ Accepts E h b v := by
  obtain ⟨h1, u, h2, h3, h4⟩ := leaf_run ha hb hi trivial (by simp) (by simp) hrun
  refine ⟨h1, fun v => ?_⟩
  simp only [leafInherit] at h2
  obtain ⟨rf, h5, h6⟩ := Out.bind_ok.1 h2
  simp at h6; subst h6
  rw [leaf_accepts h3 trivial, leaf_accepts hb trivial, datetime_inherit_ok h5 hg]

/-- C15 is violated for datetime: a parent without a format means RFC 3339, yet a child may switch to RFC 2616. -/
theorem c15_datetime_default_widens : ∃ (h h' : St) (v : GoVal),
    inherit 1 0 1 h = (.ok 0, h') ∧ Idle h 1 ∧ h.shapeAt 0 = some (.datetime (some "rfc2616")) ∧
    h.shapeAt 1 = some (.datetime none) ∧ Accepts exE h' 0 v ∧ Rejects exE h' 1 v := by
  refine ⟨heapOf [.datetime (some "rfc2616"), .datetime none], _, .str "Mon, 02 Jan 2006 15:04:05 GMT", rfl,
    ⟨_, rfl, rfl⟩, rfl, rfl, ⟨1, by decide +kernel⟩, ⟨1, "value must match format", by decide +kernel⟩⟩

/-- C15: types of different kinds cannot inherit from each other.  Exempt are unions, an any-typed parent, and an object
whose parent is a recursive reference. -/
theorem c15_kinds_cannot_mix {a b : Addr} {h : St} {t s : Shape} (n : Nat) (ha : h.shapeAt a = some t)
    (hb : h.shapeAt b = some s) (hi : Idle h b) (hk : Kind t ≠ Kind s) (ht : Kind t ≠ "union")
    (hs : Kind s ≠ "union") (hs' : Kind s ≠ "any") (hr : ¬ (Kind t = "object" ∧ Kind s = "recursive")) :
    ∃ m h', inherit (n + 1) a b h = (.err m, h') := by
  refine inherit_mixed ha hb (idle_visited hi) ?_ ?_ ?_ ?_ n
  · rintro l e rfl; simp [Kind] at ht
  · rintro rfl; simp [Kind] at hs'
  · rintro l e rfl; simp [Kind] at hs
  · intro rec
    cases t <;> cases s <;> simp [Kind] at hk ht hs hs' hr <;>
      first | exact ⟨_, Or.inl rfl⟩ | exact ⟨_, Or.inr rfl⟩

/-- C15: types of unknown or recursive kind never inherit. -/
theorem c15_unknown_recursive_refused {a b : Addr} {h : St} {t s : Shape} (n : Nat) (ha : h.shapeAt a = some t)
    (hb : h.shapeAt b = some s) (hi : Idle h b) (ht : Kind t = "unknown" ∨ Kind t = "recursive")
    (hs : Kind s ≠ "union") (hs' : Kind s ≠ "any") : ∃ m h', inherit (n + 1) a b h = (.err m, h') := by
  refine inherit_mixed ha hb (idle_visited hi) ?_ ?_ ?_ ?_ n
  · rintro l e rfl; simp [Kind] at ht
  · rintro rfl; simp [Kind] at hs'
  · rintro l e rfl; simp [Kind] at hs
  · intro rec
    cases t <;> simp [Kind] at ht <;> cases s <;> simp [Kind] at hs hs' <;>
      first | exact ⟨_, Or.inl rfl⟩ | exact ⟨_, Or.inr rfl⟩

example : ∃ h', inherit 1 0 1 (heapOf [.boolean (some [.bool true]), .boolean none]) = (.ok 0, h') ∧
    Accepts exE h' 0 (.bool true) ∧ Rejects exE h' 0 (.bool false) := by
  refine ⟨_, rfl, ⟨1, by decide +kernel⟩, ⟨1, "value must be one of", by decide +kernel⟩⟩

example : ∃ h', inherit 1 0 1 (heapOf [.integer {}, .number {}]) = (.err "cannot inherit from different type", h') :=
  ⟨_, rfl⟩

/-! ## C21 -/

/-- C21: when the child's enum holds scalars, compatibility is decided and is the subset relation (NaN equals nothing). -/
theorem c21_enum_subset (parent child : List GoVal) (hsc : ScalarEnum (some child)) :
    ∃ ans, isCompatibleEnum parent child = .ok ans ∧ (ans = true ↔ ∀ v ∈ child, v ∈ parent ∧ v ≠ .float .nan) :=
  compatible_scalar fun v hv => scalar_of (hsc child rfl v hv)

/-- C21: a positive answer always means subset, whatever the values are. -/
theorem c21_enum_sound (parent child : List GoVal) (hc : isCompatibleEnum parent child = .ok true) :
    ∀ v ∈ child, v ∈ parent := fun v hv => (compatible_true hc v hv).1

/-- C21: an array in the child's enum panics as soon as the parent's enum has an array too, and is otherwise not found;
the same for maps.  (`child` starts with the composite value, so it is reached.) -/
theorem c21_composite_panics (parent rest : List GoVal) (v : GoVal) :
    ((∃ l, v = .arr l) → ((∃ l, .arr l ∈ parent) → ∃ m, isCompatibleEnum parent (v :: rest) = .panic m) ∧
      ((∀ l, .arr l ∉ parent) → isCompatibleEnum parent (v :: rest) = .ok false)) ∧
    ((∃ l, v = .map l) → ((∃ l, .map l ∈ parent) → ∃ m, isCompatibleEnum parent (v :: rest) = .panic m) ∧
      ((∀ l, .map l ∉ parent) → isCompatibleEnum parent (v :: rest) = .ok false)) := by
  refine ⟨?_, ?_⟩
  · rintro ⟨l, rfl⟩
    simp only [isCompatibleEnum]
    constructor
    · rintro ⟨l', hl'⟩
      have : ∃ m, enumHas (.arr l) parent = .panic m := by
        induction parent with
        | nil => simp at hl'
        | cons e es ih =>
          simp only [enumHas]
          cases e <;> simp [GoVal.goEq, Out.bind] at hl' ⊢
          all_goals exact ih hl'
      obtain ⟨m, hm⟩ := this
      exact ⟨m, by rw [hm]; rfl⟩
    · intro hn
      have : enumHas (.arr l) parent = .ok false := by
        induction parent with
        | nil => rfl
        | cons e es ih =>
          simp only [enumHas]
          have ih := ih (fun l hl => hn l (List.mem_cons_of_mem _ hl))
          cases e <;> simp [GoVal.goEq, Out.bind, ih]
          all_goals exact absurd (List.mem_cons_self) (hn _)
      rw [this]; rfl
  · rintro ⟨l, rfl⟩
    simp only [isCompatibleEnum]
    constructor
    · rintro ⟨l', hl'⟩
      have : ∃ m, enumHas (.map l) parent = .panic m := by
        induction parent with
        | nil => simp at hl'
        | cons e es ih =>
          simp only [enumHas]
          cases e <;> simp [GoVal.goEq, Out.bind] at hl' ⊢
          all_goals exact ih hl'
      obtain ⟨m, hm⟩ := this
      exact ⟨m, by rw [hm]; rfl⟩
    · intro hn
      have : enumHas (.map l) parent = .ok false := by
        induction parent with
        | nil => rfl
        | cons e es ih =>
          simp only [enumHas]
          have ih := ih (fun l hl => hn l (List.mem_cons_of_mem _ hl))
          cases e <;> simp [GoVal.goEq, Out.bind, ih]
          all_goals exact absurd (List.mem_cons_self) (hn _)
      rw [this]; rfl

example : isCompatibleEnum [.int 1, .str "a"] [.str "a"] = .ok true ∧
    isCompatibleEnum [.int 1] [.str "a"] = .ok false ∧ isCompatibleEnum [.float .nan] [.float .nan] = .ok false := by
  decide +kernel

end GoRaml.Props
