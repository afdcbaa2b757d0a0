import Verif.Lemmas.InheritScalar
import Verif.Lemmas.MapOrder
import Verif.Lemmas.Bisim
import Verif.Lemmas.Monad

namespace GoRaml

open Spec

/-- A base without the fields that the first part of `Inherit` touches and the flag set by unwrapping. -/
def Base.core (b : Base) : Base := { b with visited := false, unwrapped := false, description := none, facets := none }

/-- Heaps that differ only in descriptions, custom facets and flags. -/
structure Cosmetic (h h' : St) : Prop where
  bases : ∀ x, (h'.base x).map Base.core = (h.base x).map Base.core
  pmaps : h'.pmaps = h.pmaps
  ppmaps : h'.ppmaps = h.ppmaps
  slices : h'.slices = h.slices
  dts : h'.dts = h.dts

theorem Cosmetic.refl (h : St) : Cosmetic h h := ⟨fun _ => rfl, rfl, rfl, rfl, rfl⟩

theorem Cosmetic.trans {a b c : St} (h1 : Cosmetic a b) (h2 : Cosmetic b c) : Cosmetic a c :=
  ⟨fun x => (h2.bases x).trans (h1.bases x), h2.pmaps.trans h1.pmaps, h2.ppmaps.trans h1.ppmaps,
    h2.slices.trans h1.slices, h2.dts.trans h1.dts⟩

theorem Cosmetic.shapeAt {h h' : St} (c : Cosmetic h h') (x : Addr) : h'.shapeAt x = h.shapeAt x := by
  have := c.bases x
  unfold St.shapeAt
  cases h1 : h.base x <;> cases h2 : h'.base x <;> simp [h1, h2] at this ⊢
  have := congrArg Base.shape this
  simpa [Base.core] using this

theorem Cosmetic.type {h h' : St} (c : Cosmetic h h') {x : Addr} {b : Base} (hb : h.base x = some b) :
    ∃ b', h'.base x = some b' ∧ b'.core = b.core := by
  have := c.bases x
  rw [hb] at this
  cases h2 : h'.base x <;> simp [h2] at this ⊢
  exact this

theorem Cosmetic.props {h h' : St} (c : Cosmetic h h') (p : Option Nat) : h'.props p = h.props p := by
  unfold St.props; rw [c.pmaps]
theorem Cosmetic.patProps {h h' : St} (c : Cosmetic h h') (p : Option Nat) : h'.patProps p = h.patProps p := by
  unfold St.patProps; rw [c.ppmaps]
theorem Cosmetic.slice {h h' : St} (c : Cosmetic h h') (p : Option Nat) : h'.slice p = h.slice p := by
  unfold St.slice; rw [c.slices]

theorem base_upd (h : St) (a x : Addr) (f : Base → Base) :
    ({ h with bases := h.bases.modify a f } : St).base x = (h.base x).map fun b => if a = x then f b else b := by
  simp only [St.base, List.getElem?_modify]
  cases h.bases[x]? <;> simp

theorem upd_run (a : Addr) (f : Base → Base) (h : St) :
    Heap.updBase a f h = (.ok (), { h with bases := h.bases.modify a f }) := rfl

theorem Cosmetic.upd {h : St} (a : Addr) (f : Base → Base) (hf : ∀ b, (f b).core = b.core) :
    Cosmetic h { h with bases := h.bases.modify a f } := by
  refine ⟨fun x => ?_, rfl, rfl, rfl, rfl⟩
  rw [base_upd]
  cases h.base x <;> simp
  split <;> simp [hf]

/-- The visited flag of a type. -/
def visitedAt (h : St) (x : Addr) : Option Bool := (h.base x).map (·.visited)

theorem visitedAt_upd (h : St) (a x : Addr) (f : Base → Base) (hf : ∀ b, (f b).visited = b.visited) :
    visitedAt { h with bases := h.bases.modify a f } x = visitedAt h x := by
  simp only [visitedAt, base_upd]
  cases h.base x <;> simp
  split <;> simp [hf]

theorem forEach_facets (i : Nat) (l : List (String × GoVal)) (h : St) :
    ∃ h', M.forEach (inheritFacet i) l h = (.ok (), h') ∧ Cosmetic h h' ∧ h'.bases = h.bases := by
  induction l generalizing h with
  | nil => exact ⟨h, rfl, Cosmetic.refl h, rfl⟩
  | cons kv l ih =>
    simp only [M.forEach]
    cases hg : OMap.get (h.facetMap (some i)) kv.1 with
    | some v =>
      obtain ⟨h', h1, h2, h3⟩ := ih h
      refine ⟨h', ?_, h2, h3⟩
      rw [M.bind_of_ok (a := ()) (s' := h) (by simp [inheritFacet, hg])]
      exact h1
    | none =>
      obtain ⟨h', h1, h2, h3⟩ := ih (Heap.setFacet i kv.1 kv.2 h).2
      refine ⟨h', ?_, Cosmetic.trans (b := (Heap.setFacet i kv.1 kv.2 h).2) ⟨fun _ => rfl, rfl, rfl, rfl, rfl⟩ h2, h3⟩
      rw [M.bind_of_ok (a := ()) (s' := (Heap.setFacet i kv.1 kv.2 h).2) (by simp [inheritFacet, hg, Heap.setFacet])]
      exact h1

theorem inheritFacets_run {a b : Addr} {h : St} {s src : Base} (ha : h.base a = some s) (hb : h.base b = some src) :
    ∃ h', inheritFacets a b h = (.ok (), h') ∧ Cosmetic h h' ∧ ∀ x, visitedAt h' x = visitedAt h x := by
  have e1 : Heap.getBase a h = (.ok s, h) := by simp [Heap.getBase, ha]
  have e2 : Heap.getBase b h = (.ok src, h) := by simp [Heap.getBase, hb]
  unfold inheritFacets
  rw [M.bind_of_ok e1, M.bind_of_ok e2]
  cases h1 : s.facets with
  | none =>
    exact ⟨_, rfl, Cosmetic.upd a _ (fun b => rfl), fun x => visitedAt_upd h a x _ (fun b => rfl)⟩
  | some i =>
    cases h2 : src.facets with
    | none => exact ⟨h, rfl, Cosmetic.refl h, fun _ => rfl⟩
    | some j =>
      obtain ⟨h', h3, h4, h5⟩ := forEach_facets i (h.facetMap (some j)) h
      exact ⟨h', h3, h4, fun x => by simp [visitedAt, St.base, h5]⟩

/-- The first part of `Inherit` only touches descriptions, custom facets and the visited flag of the source. -/
theorem inherit_prelude {a b : Addr} {h : St} {s src : Base} (ha : h.base a = some s) (hb : h.base b = some src)
    (hv : src.visited = false) (n : Nat) :
    ∃ h', Cosmetic h h' ∧ (∀ x, visitedAt h' x = if x = b then some true else visitedAt h x) ∧
      inherit (n + 1) a b h = inheritDispatch (inherit n) a b h' := by
  have e1 : Heap.getBase a h = (.ok s, h) := by simp [Heap.getBase, ha]
  have e2 : Heap.getBase b h = (.ok src, h) := by simp [Heap.getBase, hb]
  simp only [inherit]
  rw [M.bind_of_ok e1, M.bind_of_ok e2]
  simp only [hv, Bool.false_eq_true, if_false]
  rw [M.bind_of_ok (upd_run _ _ _), M.bind_of_ok (upd_run _ _ _)]
  set f1 : Base → Base := fun x => { x with visited := true }
  set f2 : Base → Base := fun x =>
    { x with description := match x.description with | none => src.description | some d => some d }
  set h1 : St := { h with bases := h.bases.modify b f1 } with hh1
  set h2 : St := { h1 with bases := h1.bases.modify a f2 } with hh2
  have c1 : Cosmetic h h1 := Cosmetic.upd b f1 (fun b => rfl)
  have c2 : Cosmetic h1 h2 := Cosmetic.upd a f2 (fun b => rfl)
  have c := c1.trans c2
  obtain ⟨s2, hs2, _⟩ := c.type ha
  obtain ⟨src2, hsrc2, _⟩ := c.type hb
  obtain ⟨h', h3, h4, h5⟩ := inheritFacets_run hs2 hsrc2
  refine ⟨h', c.trans h4, ?_, ?_⟩
  · intro x
    rw [h5, visitedAt_upd h1 a x f2 (fun b => rfl)]
    simp only [visitedAt, hh1, base_upd]
    by_cases hx : x = b
    · subst hx; simp [hb, f1]
    · have : ¬ b = x := fun h => hx h.symm
      simp [hx, this]
  · exact M.bind_of_ok h3

/-- Validation reads only shapes, property maps and slices. -/
theorem validate_congr (E : Ext) {h h' : St} (hs : ∀ x, h'.shapeAt x = h.shapeAt x)
    (hp : ∀ p, h'.props p = h.props p) (hpp : ∀ p, h'.patProps p = h.patProps p)
    (hsl : ∀ p, h'.slice p = h.slice p) : ∀ n a v, validate E h' n a v = validate E h n a v := by
  intro n
  induction n with
  | zero => intros; rfl
  | succ n ih =>
    intro a v
    have ih' : validate E h' n = validate E h n := by funext a v; exact ih a v
    simp only [validate, hs, ih']
    cases h.shapeAt a with
    | none => rfl
    | some s => cases s <;> simp only [validateShape, objectValidate, hp, hpp, hsl]

theorem Cosmetic.accepts {E : Ext} {h h' : St} (c : Cosmetic h h') (a : Addr) (v : GoVal) :
    Accepts E h' a v ↔ Accepts E h a v := by
  unfold Accepts
  simp only [validate_congr E c.shapeAt c.props c.patProps c.slice]

/-- Shapes without component types. -/
def IsLeaf : Shape → Prop
  | .array _ => False
  | .object _ => False
  | .union _ _ => False
  | .recursive _ => False
  | _ => True

theorem leaf_validate {E : Ext} {s : Shape} (hl : IsLeaf s) (rec rec' : Addr → GoVal → Out Unit) (h h' : St)
    (v : GoVal) : validateShape E rec h s v = validateShape E rec' h' s v := by
  cases s <;> first | rfl | exact hl.elim

/-- A leaf type accepts what its shape's `validate` accepts. -/
theorem leaf_accepts {E : Ext} {h : St} {a : Addr} {s : Shape} (hs : h.shapeAt a = some s) (hl : IsLeaf s) (v : GoVal) :
    Accepts E h a v ↔ validateShape E (fun _ _ => .diverge) {} s v = .ok () := by
  constructor
  · rintro ⟨n, hn⟩
    cases n with
    | zero => simp [validate] at hn
    | succ n =>
      simp only [validate, hs] at hn
      rwa [leaf_validate hl _ (validate E h n) _ h]
  · intro hn
    refine ⟨1, ?_⟩
    simp only [validate, hs]
    rwa [leaf_validate hl _ (fun _ _ => .diverge) _ {}]

theorem leaf_rejects {E : Ext} {h : St} {a : Addr} {s : Shape} (hs : h.shapeAt a = some s) (hl : IsLeaf s) (v : GoVal) :
    Rejects E h a v ↔ ∃ m, validateShape E (fun _ _ => .diverge) {} s v = .err m := by
  constructor
  · rintro ⟨n, m, hn⟩
    cases n with
    | zero => simp [validate] at hn
    | succ n =>
      simp only [validate, hs] at hn
      refine ⟨m, ?_⟩
      rwa [leaf_validate hl _ (validate E h n) _ h]
  · rintro ⟨m, hn⟩
    refine ⟨1, m, ?_⟩
    simp only [validate, hs]
    rwa [leaf_validate hl _ (fun _ _ => .diverge) _ {}]

theorem base_of_shape {h : St} {a : Addr} {s : Shape} (hs : h.shapeAt a = some s) :
    ∃ b, h.base a = some b ∧ b.shape = some s := by
  unfold St.shapeAt at hs
  cases hb : h.base a with
  | none => simp [hb] at hs
  | some b => exact ⟨b, rfl, by simpa [hb] using hs⟩

theorem shapeAt_of_base {h : St} {a : Addr} {b : Base} (hb : h.base a = some b) : h.shapeAt a = b.shape := by
  simp [St.shapeAt, hb]

/-- Shapes for which `target.inherit(source)` is the scalar method. -/
def IsScalarTarget : Shape → Prop
  | .array _ => False
  | .object _ => False
  | .union _ _ => False
  | _ => True

/-- `Inherit` on a scalar target and a source that is neither any nor a union. -/
theorem inherit_leaf {a b : Addr} {h : St} {t s : Shape} (ha : h.shapeAt a = some t) (hb : h.shapeAt b = some s)
    (hv : visitedAt h b = some false) (ht : IsScalarTarget t) (hs1 : s ≠ .any) (hs2 : ∀ l e, s ≠ .union l e) (n : Nat) :
    match leafInherit t s with
    | .ok r => ∃ h', inherit (n + 1) a b h = (.ok a, h') ∧ h'.shapeAt a = some r ∧
        (∀ x, x ≠ a → h'.shapeAt x = h.shapeAt x) ∧ h'.pmaps = h.pmaps ∧ h'.ppmaps = h.ppmaps ∧ h'.slices = h.slices ∧
        (∀ x, visitedAt h' x = visitedAt h x)
    | .err m => ∃ h', inherit (n + 1) a b h = (.err m, h')
    | .panic m => ∃ h', inherit (n + 1) a b h = (.panic m, h')
    | .diverge => ∃ h', inherit (n + 1) a b h = (.diverge, h') := by
  obtain ⟨ba, hba, hba'⟩ := base_of_shape ha
  obtain ⟨bb, hbb, hbb'⟩ := base_of_shape hb
  obtain ⟨h1, c, hvis, hrun⟩ := inherit_prelude hba hbb (by simpa [visitedAt, hbb] using hv) n
  have hda : h1.shapeAt a = some t := by rw [c.shapeAt, ha]
  have hdb : h1.shapeAt b = some s := by rw [c.shapeAt, hb]
  obtain ⟨b1, hb1, hb1'⟩ := base_of_shape hda
  obtain ⟨b2, hb2, hb2'⟩ := base_of_shape hdb
  have hdisp : inheritDispatch (inherit n) a b h1 =
      (M.bind (M.bind (M.lift (leafInherit t s)) fun r => setShape a r) fun _ =>
        M.bind (Heap.updBase b fun x => { x with visited := false }) fun _ => M.ret a) h1 := by
    unfold inheritDispatch
    rw [M.bind_of_ok (show Heap.getBase a h1 = (.ok b1, h1) by simp [Heap.getBase, hb1]),
      M.bind_of_ok (show Heap.getBase b h1 = (.ok b2, h1) by simp [Heap.getBase, hb2])]
    rw [hb1', hb2']
    cases t <;> simp only [IsScalarTarget] at ht <;> cases s <;> first | rfl | exact absurd rfl hs1 | exact absurd rfl (hs2 _ _)
  rw [hrun, hdisp]
  cases hl : leafInherit t s with
  | ok r =>
    set h2 : St := { h1 with bases := h1.bases.modify a fun x => { x with shape := some r } } with hh2
    set h3 : St := { h2 with bases := h2.bases.modify b fun x => { x with visited := false } } with hh3
    have hbase : ∀ x, h3.base x = ((h1.base x).map fun y => if a = x then { y with shape := some r } else y).map
        fun y => if b = x then { y with visited := false } else y := by
      intro x; rw [hh3, base_upd, hh2, base_upd]
    refine ⟨h3, rfl, ?_, ?_, c.pmaps, c.ppmaps, c.slices, ?_⟩
    · simp only [St.shapeAt, hbase, hb1]
      by_cases hab : b = a <;> simp [hab]
    · intro x hx
      rw [← c.shapeAt]
      simp only [St.shapeAt, hbase]
      have hx' : ¬ a = x := fun h => hx h.symm
      cases h1.base x <;> simp [hx']
      split <;> rfl
    · intro x
      have := hvis x
      simp only [visitedAt, hbase] at this ⊢
      by_cases hx : x = b
      · subst hx
        rw [hb2]
        simp only [visitedAt] at hv
        rw [hv]
        simp
      · have hx' : ¬ b = x := fun h => hx h.symm
        simp only [hx, if_false] at this
        rw [← this]
        cases h1.base x <;> simp [hx']
        split <;> rfl
  | err m => exact ⟨_, rfl⟩
  | panic m => exact ⟨_, rfl⟩
  | diverge => exact ⟨_, rfl⟩

/-- A target of another kind than the source is refused. -/
theorem inherit_mixed {a b : Addr} {h : St} {t s : Shape} (ha : h.shapeAt a = some t) (hb : h.shapeAt b = some s)
    (hv : visitedAt h b = some false) (ht2 : ∀ l e, t ≠ .union l e) (hs1 : s ≠ .any) (hs2 : ∀ l e, s ≠ .union l e)
    (hk : ∀ rec, ∃ m, inheritShape rec a b t s = M.err m ∨
      inheritShape rec a b t s = M.bind (M.lift (.err m)) fun r => setShape a r) (n : Nat) :
    ∃ m h', inherit (n + 1) a b h = (.err m, h') := by
  obtain ⟨ba, hba, hba'⟩ := base_of_shape ha
  obtain ⟨bb, hbb, hbb'⟩ := base_of_shape hb
  obtain ⟨h1, c, hvis, hrun⟩ := inherit_prelude hba hbb (by simpa [visitedAt, hbb] using hv) n
  have hda : h1.shapeAt a = some t := by rw [c.shapeAt, ha]
  have hdb : h1.shapeAt b = some s := by rw [c.shapeAt, hb]
  obtain ⟨b1, hb1, hb1'⟩ := base_of_shape hda
  obtain ⟨b2, hb2, hb2'⟩ := base_of_shape hdb
  have hdisp : inheritDispatch (inherit n) a b h1 =
      (M.bind (inheritShape (inherit n) a b t s) fun _ =>
        M.bind (Heap.updBase b fun x => { x with visited := false }) fun _ => M.ret a) h1 := by
    unfold inheritDispatch
    rw [M.bind_of_ok (show Heap.getBase a h1 = (.ok b1, h1) by simp [Heap.getBase, hb1]),
      M.bind_of_ok (show Heap.getBase b h1 = (.ok b2, h1) by simp [Heap.getBase, hb2])]
    rw [hb1', hb2']
    cases t <;> cases s <;> first | rfl | exact absurd rfl hs1 | exact absurd rfl (hs2 _ _) | exact absurd rfl (ht2 _ _)
  rw [hrun, hdisp]
  obtain ⟨m, hm | hm⟩ := hk (inherit n) <;> rw [hm] <;> exact ⟨m, _, rfl⟩

end GoRaml
