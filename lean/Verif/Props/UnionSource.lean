import Verif.Lemmas.UnionSource
import Verif.Props.InFiles

/-!
# Property C75: a type that overrides a union
-/

namespace GoRaml.Props

open GoRaml GoRaml.Spec

/-- The skeleton of `Inherit` from a union. -/
theorem union_source_run {n : Nat} {h h' : St} {a b r : Addr} {t : Shape} {l : Option Nat} {e : Option (List GoVal)}
    (ha : h.shapeAt a = some t) (ht : ∀ l e, t ≠ .union l e) (hb : h.shapeAt b = some (.union l e)) (hid : Idle h b)
    (hrun : inherit (n + 1) a b h = (.ok r, h')) :
    ∃ h1, Cosmetic h h1 ∧ inheritUnionSource (inherit n) a (h1.slice l) h1 = (.ok r, h') := by
  obtain ⟨ba, hba, hba'⟩ := base_of_shape ha
  obtain ⟨bb, hbb, hbb'⟩ := base_of_shape hb
  have hv := idle_visited hid
  obtain ⟨h1, c, hvis, hr0⟩ := inherit_prelude hba hbb (by simpa [visitedAt, hbb] using hv) n
  rw [hr0] at hrun
  obtain ⟨b1, hb1, hb1'⟩ := base_of_shape (show h1.shapeAt a = some t by rw [c.shapeAt, ha])
  obtain ⟨b2, hb2, hb2'⟩ := base_of_shape (show h1.shapeAt b = some (.union l e) by rw [c.shapeAt, hb])
  unfold inheritDispatch at hrun
  rw [M.bind_of_ok (show Heap.getBase a h1 = (.ok b1, h1) by simp [Heap.getBase, hb1]),
    M.bind_of_ok (show Heap.getBase b h1 = (.ok b2, h1) by simp [Heap.getBase, hb2]), hb1', hb2'] at hrun
  refine ⟨h1, c, ?_⟩
  rw [← hrun]
  cases t <;> first | rfl | exact absurd rfl (ht _ _)

/-- C75, the result: if a scalar type inherits from a union of scalar types, and it meets the conditions of C12-C15 with the members that have its type name, every value of the
type that `Inherit` returns belongs to the union.  Unless the child itself is what is returned, the child is as it was.  In any case it has kept its kind and the name of its type,
or it is a union and is called one. -/
theorem c75_result_narrows (E : Ext) {n : Nat} {h h' : St} {a b r : Addr} {t : Shape} {l : Option Nat} {e : Option (List GoVal)}
    (ha : h.shapeAt a = some t) (hleaf : IsLeaf t) (hb : h.shapeAt b = some (.union l e)) (hid : Idle h b) (hself : a ∉ h.slice l)
    (hscalar : ∀ x ∈ h.slice l, ∃ q, h.shapeAt x = some q ∧ IsLeaf q)
    (hpairs : ∀ s ∈ h.slice l, ∀ ba bs qs, h.base a = some ba → h.base s = some bs → bs.type = ba.type → bs.shape = some qs → ScalarNarrows t qs)
    (hrun : inherit (n + 1) a b h = (.ok r, h')) :
    (∀ v, Valid E h' r v → Valid E h b v) ∧ (r ≠ a → h'.shapeAt a = some t) ∧
      ∀ ba ba', h.base a = some ba → h'.base a = some ba' → (ba'.shape = some t ∧ ba'.type = ba.type) ∨ (∃ l, ba'.shape = some (.union l none)) ∧ ba'.type = "union" := by
  obtain ⟨h1, c, hr⟩ := union_source_run ha (by rintro l e rfl; exact hleaf.elim) hb hid hrun
  have hsm : ScalarMembers h1 [a] (h.slice l) := by
    have k : KeepShapes h h1 := ⟨c.grown.bases, fun x _ => c.shapeAt x, fun x _ => c.types x⟩
    refine ScalarMembers.mono ⟨fun x hx => ?_, fun x hx s hs bt bs qt qs hbt hbs hty hqt hqs => ?_⟩ k
    · rcases List.mem_append.1 hx with hx | hx
      · obtain rfl := List.mem_singleton.1 hx; exact ⟨t, ha, hleaf⟩
      · exact hscalar x hx
    · obtain rfl := List.mem_singleton.1 hx
      have : qt = t := by simpa [St.shapeAt, hbt, hqt] using ha
      subst this
      exact hpairs s hs bt bs qs hbt hbs hty hqs
  rw [c.slice] at hr
  unfold inheritUnionSource at hr
  obtain ⟨o, h2, e1, hr1⟩ := M.bind_ok.1 hr
  obtain ⟨k, hnone, hsome⟩ := unionSourceLoop_scalar (E := E) hsm e1
  have ha1 : h1.shapeAt a = some t := by rw [c.shapeAt, ha]
  have ha2 : h2.shapeAt a = some t := by rw [k.shapes a (lt_of_shapeAt ha1), ha1]
  have kept : ∀ ba ba', h.base a = some ba → h2.base a = some ba' → (ba'.shape = some t ∧ ba'.type = ba.type) ∨ (∃ l, ba'.shape = some (.union l none)) ∧ ba'.type = "union" := by
    intro ba ba' hba hba'
    refine .inl ⟨by simpa [St.shapeAt, hba'] using ha2, ?_⟩
    have e2 := (k.types a (lt_of_shapeAt ha1)).trans (c.types a)
    simpa [hba, hba'] using e2
  have inB : ∀ s ∈ h.slice l, ∀ v, Valid E h s v → Valid E h b v := by
    intro s hs v hv
    rw [valid_iff_step]; unfold Step; rw [hb]
    exact ⟨s, hs, hv⟩
  have member : ∀ {ms}, o = some ms → ∀ m ∈ ms, ∀ v h3, h3.shapeAt m = h2.shapeAt m → Valid E h3 m v → Valid E h b v := by
    intro ms ho m hm v h3 e3 hv
    obtain ⟨_, s, hs, q, hq, ⟨p, hp, hpl, hpn⟩⟩ := hsome ms ho m hm
    exact inB s hs v (hpn h3 h m s (by rw [e3, hp]) (by rw [← c.shapeAt]; exact hq) v hv)
  cases o with
  | none =>
    obtain ⟨rfl, rfl⟩ := M.ret_ok.1 hr1
    refine ⟨fun v _ => ?_, fun hne => absurd rfl hne, kept⟩
    obtain ⟨s, hs, hs'⟩ := hnone rfl
    refine inB s hs v ?_
    rw [valid_iff_step]; unfold Step; rw [← c.shapeAt, hs']; trivial
  | some ms =>
    match ms, hr1, member rfl, hsome with
    | [], hr1, _, _ => exact absurd hr1 (by simp [M.err])
    | [m], hr1, member, _ =>
      obtain ⟨rfl, rfl⟩ := M.ret_ok.1 hr1
      exact ⟨fun v hv => member _ (by simp) v _ rfl hv, fun _ => ha2, kept⟩
    | m1 :: m2 :: ms, hr1, member, hsome =>
      obtain ⟨i, h3, e3, hr2⟩ := M.bind_ok.1 hr1
      simp only [Heap.newSlice, Prod.mk.injEq, Out.ok.injEq] at e3
      obtain ⟨rfl, rfl⟩ := e3
      obtain ⟨_, h4, e4, hr3⟩ := M.bind_ok.1 hr2
      obtain ⟨rfl, rfl⟩ := M.ret_ok.1 hr3
      simp only [Heap.updBase, Prod.mk.injEq, true_and] at e4
      have hsh : ∀ x, h4.shapeAt x = if x = a then some (.union (some h2.slices.length) none) else h2.shapeAt x := by
        intro x
        rw [← e4]
        simp only [St.shapeAt, St.base, List.getElem?_modify]
        by_cases hx : x = a
        · subst hx
          rw [List.getElem?_eq_getElem (lt_of_shapeAt ha2)]
          simp
        · have hx' : ¬ a = x := fun e => hx e.symm
          simp only [if_neg hx, if_neg hx']
          cases h2.bases[x]? <;> rfl
      refine ⟨fun v hv => ?_, fun hne => absurd rfl hne, fun ba ba' hba hba' => .inr ?_⟩
      rotate_left
      · rw [← e4] at hba'
        simp only [St.base, List.getElem?_modify, if_true] at hba'
        obtain ⟨y, _, rfl⟩ := Option.map_eq_some_iff.1 hba'
        exact ⟨⟨_, rfl⟩, rfl⟩
      rw [valid_iff_step] at hv
      unfold Step at hv
      rw [hsh, if_pos rfl] at hv
      obtain ⟨m, hm, hmv⟩ := hv
      have hsl : h4.slice (some h2.slices.length) = m1 :: m2 :: ms := by
        rw [← e4]; simp [St.slice]
      rw [hsl] at hm
      have hma : m ≠ a := by
        rintro rfl
        rcases (hsome _ rfl _ hm).1 with h5 | h5
        · exact hself h5
        · exact absurd (lt_of_shapeAt ha1) (not_lt.2 h5)
      exact member m hm v h4 (by rw [hsh, if_neg hma]) hmv

/-- A union (0) `string up to 2 characters | integer` with members 2 and 3, a string type (1) of at least one character, and a union (4) of two string types (2 and 5). -/
def exShortOr : St :=
  { bases := [{ shape := some (.union (some 0) none), type := "union" }, { shape := some (.string { minLength := some 1 }), type := "string", id := 1 },
      { shape := some (.string { maxLength := some 2 }), type := "string", id := 2 }, { shape := some (.integer {}), type := "integer", id := 3 },
      { shape := some (.union (some 1) none), type := "union", id := 4 }, { shape := some (.string { maxLength := some 1 }), type := "string", id := 5 }]
    slices := [[2, 3], [2, 5]]
    idCounter := 9 }

/-- The hypotheses are met: the result for one compatible member is a new type with the limits of both, and the child stays as it was and accepts more than the union. -/
example : ∃ h', inherit 2 1 0 exShortOr = (.ok 6, h') ∧ Idle exShortOr 0 ∧ 1 ∉ exShortOr.slice (some 0) ∧ Rejects exE h' 6 (.str "abc") ∧ Rejects exE h' 6 (.str "") ∧
    Accepts exE h' 6 (.str "ab") ∧ Accepts exE h' 1 (.str "abc") :=
  ⟨_, M.run_ok (by decide +kernel), ⟨_, rfl, rfl⟩, by decide +kernel, ⟨3, "length must be less than", by decide +kernel⟩, ⟨3, "length must be greater than", by decide +kernel⟩,
    ⟨3, by decide +kernel⟩, ⟨3, by decide +kernel⟩⟩

/-- With two compatible members the child becomes a union of both. -/
example : ∃ h', inherit 2 1 4 exShortOr = (.ok 1, h') ∧ Idle exShortOr 4 ∧ Rejects exE h' 1 (.str "abc") ∧ Accepts exE h' 1 (.str "ab") ∧ Rejects exE h' 1 (.str "") :=
  ⟨_, M.run_ok (by decide +kernel), ⟨_, rfl, rfl⟩, ⟨3, "value does not match any type", by decide +kernel⟩, ⟨3, by decide +kernel⟩, ⟨3, "value does not match any type", by decide +kernel⟩⟩

/-- All hypotheses together. -/
example (v : GoVal) (hv : Valid exE (inherit 2 1 0 exShortOr).2 6 v) : Valid exE exShortOr 0 v := by
  refine (c75_result_narrows exE (n := 1) (a := 1) (t := .string { minLength := some 1 }) (l := some 0) rfl trivial rfl ⟨_, rfl, rfl⟩ (by decide +kernel) ?_ ?_
    (M.run_ok (by decide +kernel))).1 v hv
  · intro x hx
    simp [exShortOr, St.slice] at hx
    rcases hx with rfl | rfl <;> exact ⟨_, rfl, trivial⟩
  · intro s hs ba bs qs ha hs' ht hq
    simp [exShortOr, St.slice] at hs
    rcases hs with rfl | rfl
    · cases ha; cases hs'; cases hq; exact .inl rfl
    · cases ha; cases hs'; exact absurd ht (by decide)

/-! ## In files -/

/-- A property of a union type, and an heir that declares it again as a string. -/
def exOverride : List (String × YNode) := [
  ("Short", exMap [("type", .str "string"), ("maxLength", .str "2")]),
  ("Base", exMap [("properties", exMap [("p", .str "Short | integer")])]),
  ("Heir", exMap [("type", .str "Base"), ("properties", exMap [("p", .str "string")])])]

/-- C75 is violated where it is used: the result of `Inherit` is dropped, so `Heir` accepts a long string where `Base` allows short ones only. -/
theorem c75_in_files : ∃ s, ExUnwrapped exOverride [("Short", 0), ("Base", 1), ("Heir", 3)] s ∧ Rejects exE s 1 (.map [("p", .str "abc")]) ∧
    Accepts exE s 1 (.map [("p", .str "ab")]) ∧ Accepts exE s 3 (.map [("p", .str "abc")]) :=
  ⟨_, exUnwrapped (by decide +kernel) (by decide +kernel) (by decide +kernel) (by decide +kernel), ⟨20, "value does not match any type", by decide +kernel⟩,
    ⟨20, by decide +kernel⟩, ⟨20, by decide +kernel⟩⟩

/-- Arrays of a union type, and an heir that declares its items again as strings. -/
def exOverrideItems : List (String × YNode) := [
  ("Short", exMap [("type", .str "string"), ("maxLength", .str "2")]),
  ("Base", exMap [("type", .str "array"), ("items", .str "Short | integer")]),
  ("Heir", exMap [("type", .str "Base"), ("items", .str "string")])]

/-- C75 is violated for items in the same way. -/
theorem c75_items_in_files : ∃ s, ExUnwrapped exOverrideItems [("Short", 0), ("Base", 1), ("Heir", 3)] s ∧ Rejects exE s 1 (.arr [.str "abc"]) ∧
    Accepts exE s 1 (.arr [.str "ab"]) ∧ Accepts exE s 3 (.arr [.str "abc"]) :=
  ⟨_, exUnwrapped (by decide +kernel) (by decide +kernel) (by decide +kernel) (by decide +kernel), ⟨20, "value does not match any type", by decide +kernel⟩,
    ⟨20, by decide +kernel⟩, ⟨20, by decide +kernel⟩⟩

end GoRaml.Props
