import Verif.Lemmas.UnwrapStep
import Verif.Props.Inherit

/-!
# Properties C26 - C29: aliases and unwrapping
-/

namespace GoRaml.Props

open GoRaml Spec

/-! ## C26 -/

theorem getShape_ok {a : Addr} {s : Shape} {h h' : St} : Heap.getShape a h = (.ok s, h') ↔ h.shapeAt a = some s ∧ h' = h := by
  unfold Heap.getShape
  cases h.shapeAt a <;> simp [eq_comm]

/-- `AliasTo` in one step. -/
theorem aliasTo_run {a b : Addr} {h : St} {t s : Shape} (ha : h.shapeAt a = some t) (hb : h.shapeAt b = some s) :
    (∀ r, aliasShape t s = .ok r → ∃ h', aliasTo a b h = (.ok a, h') ∧ h'.shapeAt a = some r ∧
      (∀ x, x ≠ a → h'.base x = h.base x) ∧ h'.pmaps = h.pmaps ∧ h'.ppmaps = h.ppmaps ∧ h'.slices = h.slices ∧
      h'.bases.length = h.bases.length) ∧
    (∀ e, aliasShape t s = .err e → aliasTo a b h = (.err e, h)) := by
  have e1 : Heap.getShape a h = (.ok t, h) := getShape_ok.2 ⟨ha, rfl⟩
  have e2 : Heap.getShape b h = (.ok s, h) := getShape_ok.2 ⟨hb, rfl⟩
  refine ⟨fun r hr => ?_, fun e he => ?_⟩
  · unfold aliasTo
    rw [M.bind_of_ok e1, M.bind_of_ok e2, hr,
      M.bind_of_ok (s' := h) (show M.lift (.ok r) h = (.ok r, h) from rfl)]
    obtain ⟨ba, hba, _⟩ := base_of_shape ha
    obtain ⟨bb, hbb, _⟩ := base_of_shape hb
    have hset : ∀ x, ({ h with bases := h.bases.modify a fun y => { y with shape := some r } } : St).base x =
        (h.base x).map fun y => if a = x then { y with shape := some r } else y := fun x => base_upd h a x _
    rw [M.bind_of_ok (show setShape a r h = (.ok (), { h with bases := h.bases.modify a fun y => { y with shape := some r } })
      from rfl)]
    have hfr : ({ h with bases := h.bases.modify a fun y => { y with shape := some r } } : St).pmaps = h.pmaps ∧
      ({ h with bases := h.bases.modify a fun y => { y with shape := some r } } : St).ppmaps = h.ppmaps ∧
      ({ h with bases := h.bases.modify a fun y => { y with shape := some r } } : St).slices = h.slices ∧
      ({ h with bases := h.bases.modify a fun y => { y with shape := some r } } : St).bases.length = h.bases.length :=
      ⟨rfl, rfl, rfl, by simp⟩
    generalize ({ h with bases := h.bases.modify a fun y => { y with shape := some r } } : St) = h1 at hset hfr
    obtain ⟨src, hsrc⟩ : ∃ src, h1.base b = some src := by rw [hset, hbb]; exact ⟨_, rfl⟩
    rw [M.bind_of_ok (show Heap.getBase b h1 = (.ok src, h1) by simp [Heap.getBase, hsrc])]
    rw [M.bind_of_ok (upd_run _ _ _)]
    refine ⟨_, rfl, ?_, fun x hx => ?_, hfr.1, hfr.2.1, hfr.2.2.1, by simpa using hfr.2.2.2⟩
    · unfold St.shapeAt; rw [base_upd, hset, hba]; simp
    · rw [base_upd, hset]
      have : ¬ a = x := fun h => hx h.symm
      cases h.base x <;> simp [this]
  · unfold aliasTo
    rw [M.bind_of_ok e1, M.bind_of_ok e2, he]; rfl

/-- Two types with the same shape have the same values. -/
theorem same_shape_same_values (E : Ext) {h : St} {a b : Addr} (hs : h.shapeAt a = h.shapeAt b) (v : GoVal) :
    Valid E h a v ↔ Valid E h b v := by
  rw [valid_iff_step E h a, valid_iff_step E h b]
  unfold Step; rw [hs]

/-- C26: making `a` an alias of `b`, for types of any kind except boolean: afterwards `a` accepts exactly the values that
`b` accepts; no other type is written to, so that `b` accepts what it accepted before, unless `a` is a part of `b`. -/
theorem c26_alias_same_values (E : Ext) {h h' : St} {a b r : Addr} (hrun : aliasTo a b h = (.ok r, h'))
    (hbool : ∀ e, h.shapeAt b ≠ some (.boolean e)) :
    r = a ∧ (∀ v, Valid E h' a v ↔ Valid E h' b v) ∧ (∀ x, x ≠ a → h'.base x = h.base x) ∧
    (¬ Part h b (.base a) → ∀ v, Valid E h' b v ↔ Valid E h b v) := by
  have hrun1 := hrun
  unfold aliasTo at hrun1
  obtain ⟨t, h1, e1, hrun2⟩ := M.bind_ok.1 hrun1
  obtain ⟨ht, h1e⟩ := getShape_ok.1 e1
  obtain ⟨s, h2, e2, hrun3⟩ := M.bind_ok.1 hrun2
  obtain ⟨hs, h2e⟩ := getShape_ok.1 e2
  obtain ⟨sh, h3, e3, _⟩ := M.bind_ok.1 hrun3
  obtain ⟨hsh, h3e⟩ := M.lift_ok.1 e3
  rw [h1e] at hs
  obtain ⟨h'', hr, hshape, hother, hpm, hppm, hsl, _⟩ := (aliasTo_run ht hs).1 sh hsh
  rw [hrun] at hr
  simp only [Prod.mk.injEq, Out.ok.injEq] at hr
  obtain ⟨rfl, rfl⟩ := hr
  have hss : sh = s := by
    cases t <;> cases s <;> simp only [aliasShape, reduceCtorEq, Out.ok.injEq] at hsh <;>
      first | exact hsh.symm | exact absurd hs (hbool _)
  subst hss
  have hb : h'.shapeAt b = some sh := by
    by_cases hab : b = r
    · rw [hab]; exact hshape
    · unfold St.shapeAt; rw [hother b hab]; exact hs
  refine ⟨rfl, same_shape_same_values E (by rw [hshape, hb]), hother, fun hp => valid_agree ⟨fun x hx => ?_, fun i _ => ?_, fun i _ => ?_, hsl⟩⟩
  · rw [hother x fun hxa => hp (hxa ▸ hx)]
  · rw [hpm]
  · rw [hppm]

/-- C26, when it succeeds: exactly when both types are of the same kind and that kind is known. -/
theorem c26_alias_succeeds {h : St} {a b : Addr} {t s : Shape} (ha : h.shapeAt a = some t) (hb : h.shapeAt b = some s) :
    (∃ r h', aliasTo a b h = (.ok r, h')) ↔ Kind t = Kind s ∧ Kind t ≠ "unknown" := by
  constructor
  · rintro ⟨r, h', hr⟩
    cases hal : aliasShape t s with
    | ok sh => cases t <;> cases s <;> first | (simp only [aliasShape, reduceCtorEq] at hal; done) | exact ⟨rfl, by simp [Kind]⟩
    | err e => rw [(aliasTo_run ha hb).2 e hal] at hr; simp at hr
    | panic e => exfalso; cases t <;> cases s <;> simp [aliasShape] at hal
    | diverge => exfalso; cases t <;> cases s <;> simp [aliasShape] at hal
  · rintro ⟨hk, hu⟩
    have : ∃ sh, aliasShape t s = .ok sh := by
      cases t <;> cases s <;> first | exact ⟨_, rfl⟩ | exact absurd rfl hu | exact absurd hk (by simp [Kind])
    obtain ⟨sh, hsh⟩ := this
    obtain ⟨h', hr, _⟩ := (aliasTo_run ha hb).1 sh hsh
    exact ⟨a, h', hr⟩

/-- C26 (violated for booleans): an alias of a boolean type accepts every boolean, whatever the enum of its target. -/
theorem c26_boolean_enum_dropped (E : Ext) {h h' : St} {a b r : Addr} {e : Option (List GoVal)}
    (ha : h.shapeAt a = some (.boolean none)) (hb : h.shapeAt b = some (.boolean e))
    (hrun : aliasTo a b h = (.ok r, h')) (v : GoVal) : Valid E h' a v ↔ ∃ x, v = .bool x := by
  obtain ⟨h'', hr, hshape, _⟩ := (aliasTo_run ha hb).1 _ rfl
  rw [hrun] at hr
  simp only [Prod.mk.injEq, Out.ok.injEq] at hr
  obtain ⟨rfl, rfl⟩ := hr
  rw [valid_iff_step]; unfold Step; rw [hshape]
  simp [BooleanOK]

/-- C26 for unwrapping: when a type `a` declared as a reference to `t` (not of boolean kind) is unwrapped, the result is
`a` itself, and it accepts exactly what the result of unwrapping `t` accepts in the final heap. -/
theorem c26_unwrap_alias (E : Ext) {n : Nat} {h h' : St} {a t r : Addr} {b : Base} (hb : h.base a = some b)
    (hu : b.unwrapped = false) (hal : b.alias = some t) (hrun : unwrap (n + 1) a h = (.ok r, h')) :
    r = a ∧ ∃ us h1, unwrap n t { h with bases := h.bases.modify a fun y => { y with unwrapped := true } } = (.ok us, h1) ∧
      ((∀ e, h1.shapeAt us ≠ some (.boolean e)) → ∀ v, Valid E h' a v ↔ Valid E h' us v) := by
  unfold unwrap at hrun
  rw [M.bind_of_ok (show Heap.getBase a h = (.ok b, h) by simp [Heap.getBase, hb])] at hrun
  cases hs : b.shape with
  | none => rw [hs] at hrun; cases hrun
  | some s =>
    rw [hs] at hrun
    simp only [hu, Bool.false_eq_true, if_false, hal] at hrun
    rw [M.bind_of_ok (upd_run _ _ _)] at hrun
    obtain ⟨us, h1, e1, hrun⟩ := M.bind_ok.1 hrun
    rw [M.bind_of_ok (show Heap.putShape a h1 = (.ok (), { h1 with shapes := h1.shapes ++ [a] }) from rfl)] at hrun
    have hr : r = a := by
      unfold aliasTo at hrun
      obtain ⟨_, _, _, hrun⟩ := M.bind_ok.1 hrun
      obtain ⟨_, _, _, hrun⟩ := M.bind_ok.1 hrun
      obtain ⟨_, _, _, hrun⟩ := M.bind_ok.1 hrun
      obtain ⟨_, _, _, hrun⟩ := M.bind_ok.1 hrun
      obtain ⟨_, _, _, hrun⟩ := M.bind_ok.1 hrun
      obtain ⟨_, _, _, hrun⟩ := M.bind_ok.1 hrun
      exact (M.ret_ok.1 hrun).1.symm
    exact ⟨hr, us, h1, e1, fun hbool => (c26_alias_same_values E hrun hbool).2.1⟩

/-- A chain of aliases 0 → 1 → 2 to an array type with integer items 3. -/
def exAlias : St :=
  { bases := [{ shape := some (.array {}), «alias» := some 1 }, { shape := some (.array {}), «alias» := some 2 },
      { shape := some (.array { items := some 3, maxItems := some 2 }) }, { shape := some (.integer { maximum := some 9 }) }] }

/-- The hypotheses are met: unwrapping the chain succeeds and the alias rejects what its target rejects. -/
example : ∃ h', unwrap 4 0 exAlias = (.ok 0, h') ∧ Rejects exE h' 0 (.arr [.int 10]) ∧ Accepts exE h' 0 (.arr [.int 9]) ∧
    Accepts exE exAlias 0 (.arr [.int 10]) :=
  ⟨_, M.run_ok (by decide +kernel), ⟨3, "value must be less than", by decide +kernel⟩, ⟨3, by decide +kernel⟩,
    ⟨3, by decide +kernel⟩⟩

/-- The boolean case arises: the target rejects `false`, its alias accepts it. -/
example : ∃ h', aliasTo 0 1 (heapOf [.boolean none, .boolean (some [.bool true])]) = (.ok 0, h') ∧
    Accepts exE h' 0 (.bool false) ∧ Rejects exE h' 1 (.bool false) :=
  ⟨_, M.run_ok (by decide +kernel), ⟨1, by decide +kernel⟩, ⟨1, "value must be one of", by decide +kernel⟩⟩

/-! ## C27 -/

/-- C27: unwrapping a type that is marked unwrapped (and has a shape) returns it and changes nothing. -/
theorem c27_already_unwrapped {h : St} {a : Addr} {b : Base} (hb : h.base a = some b) (hu : b.unwrapped = true)
    (hs : b.shape ≠ none) (n : Nat) : unwrap (n + 1) a h = (.ok a, h) := by
  unfold unwrap
  rw [M.bind_of_ok (show Heap.getBase a h = (.ok b, h) by simp [Heap.getBase, hb])]
  cases hs' : b.shape with
  | none => exact absurd hs' hs
  | some s => simp only [hu, if_true]; rfl

/-- C27: after a successful call the type is marked unwrapped and has a shape. -/
theorem c27_marked {n : Nat} {h h' : St} {a r : Addr} (hrun : unwrap n a h = (.ok r, h')) :
    ∃ b, h'.base a = some b ∧ b.unwrapped = true ∧ b.shape ≠ none := by
  suffices doneAt h' a by
    obtain ⟨b, h1, h2, h3⟩ := this
    exact ⟨b, h1, h2, fun h => by rw [h] at h3; cases h3⟩
  cases n with
  | zero => simp [unwrap, M.diverge] at hrun
  | succ n =>
    unfold unwrap at hrun
    obtain ⟨b, h1, e1, hrun1⟩ := M.bind_ok.1 hrun
    obtain ⟨hb, he1⟩ := getBase_ok.1 e1
    rw [he1] at hrun1
    cases hs : b.shape with
    | none => rw [hs] at hrun1; cases hrun1
    | some s =>
      rw [hs] at hrun1
      by_cases hu : b.unwrapped = true
      · simp only [hu, if_true] at hrun1
        obtain ⟨_, he⟩ := M.ret_ok.1 hrun1
        rw [← he]
        exact ⟨b, hb, hu, by rw [hs]; rfl⟩
      · simp only [hu, Bool.false_eq_true, if_false] at hrun1
        rw [M.bind_of_ok (upd_run _ _ _)] at hrun1
        have hd : doneAt { h with bases := h.bases.modify a fun y => { y with unwrapped := true } } a := by
          refine ⟨{ b with unwrapped := true }, ?_, rfl, by simp [hs]⟩
          rw [base_upd, hb]; simp
        have hr : ∀ x, Keeps (DKeep a) (unwrap n x) := dkeep_unwrap a n
        generalize ({ h with bases := h.bases.modify a fun y => { y with unwrapped := true } } : St) = h2 at hrun1 hd
        cases hal : b.alias with
        | some t =>
          rw [hal] at hrun1
          have k := (Keeps.bind DKeep.tr (hr t) fun us => Keeps.bind DKeep.tr (fun _ => dkeep_bases rfl) fun _ =>
            dkeep_aliasTo (b := a) a us : Keeps (DKeep a) (M.bind (unwrap n t) fun us =>
              M.bind (Heap.putShape a) fun _ => aliasTo a us)) h2 hd
          exact (congrArg (fun x : Out Addr × St => doneAt x.2 a) hrun1).mp k
        | none =>
          rw [hal] at hrun1
          have k := (Keeps.bind DKeep.tr (dkeep_unwrapParents hr n a) fun source =>
            Keeps.bind DKeep.tr (dkeep_unwrapTarget hr n a) fun _ => Keeps.bind DKeep.tr (dkeep_getBase a) fun b' =>
            Keeps.bind DKeep.tr (dkeep_when (fun i => dkeep_unwrapFacetDefs hr a i n 0) b'.facetDefs) fun _ =>
              dkeep_unwrapFinish (b := a) n a source : Keeps (DKeep a) _) h2 hd
          exact (congrArg (fun x : Out Addr × St => doneAt x.2 a) hrun1).mp k

/-- C27: a second call, directly after a successful one or after any further calls of `UnwrapShape`, returns the type
itself and changes nothing. -/
theorem c27_second_call {n m k : Nat} {h h₁ h₂ : St} {a r x : Addr} {o : Out Addr} (hrun : unwrap n a h = (.ok r, h₁))
    (hmore : unwrap m x h₁ = (o, h₂)) : unwrap (k + 1) a h₁ = (.ok a, h₁) ∧ unwrap (k + 1) a h₂ = (.ok a, h₂) := by
  obtain ⟨b, h1, h2, h3⟩ := c27_marked hrun
  refine ⟨c27_already_unwrapped h1 h2 h3 k, ?_⟩
  have kd := dkeep_unwrap a m x h₁ ⟨b, h1, h2, by cases hs : b.shape with | none => exact absurd hs h3 | some s => rfl⟩
  rw [hmore] at kd
  obtain ⟨b', h1', h2', h3'⟩ := kd
  exact c27_already_unwrapped h1' h2' (fun h => by rw [h] at h3'; cases h3') k

/-- A string type 0 whose parent 1 is the union of the string types 2 and an integer type 3. -/
def exUnionParent : St :=
  { bases := [{ shape := some (.string {}), type := "string", inherits := some 0 },
      { shape := some (.union (some 1) none), type := "union" },
      { shape := some (.string { maxLength := some 3 }), type := "string" }, { shape := some (.integer {}), type := "integer" }]
    slices := [[1], [2, 3]] }

/-- C27, a caveat: with a union parent the first call returns a copy of the type, restricted by the matching member; the
second call returns the type itself, which does not have the restriction. -/
theorem c27_union_parent_differs : ∃ h h₁ r, unwrap 8 0 h = (.ok r, h₁) ∧ unwrap 8 0 h₁ = (.ok 0, h₁) ∧ r ≠ 0 ∧
    Rejects exE h₁ r (.str "abcd") ∧ Accepts exE h₁ 0 (.str "abcd") :=
  have h1 : unwrap 8 0 exUnionParent = (.ok 4, (unwrap 8 0 exUnionParent).2) := M.run_ok (by decide +kernel)
  ⟨exUnionParent, _, 4, h1, (c27_second_call (m := 0) (x := 0) h1 (Prod.ext rfl rfl)).1, by decide,
    ⟨2, "length must be less than", by decide +kernel⟩, ⟨2, by decide +kernel⟩⟩

/-! ## C28 -/

/-- Type 0 has the object parents 1 (property `x`) and 2 (required property `y`). -/
def exTwoParents : St :=
  { bases := [{ shape := some (.object {}), type := "object", inherits := some 0 },
      { shape := some (.object { properties := some 0 }), type := "object", unwrapped := true },
      { shape := some (.object { properties := some 1 }), type := "object", unwrapped := true },
      { shape := some .any, unwrapped := true }]
    slices := [[1, 2]]
    pmaps := [[("x", ⟨"x", 3, false⟩)], [("y", ⟨"y", 3, true⟩)]] }

/-- C28 (violated by multiple inheritance): unwrapping a child of two object types changes what its first parent accepts,
although both parents were unwrapped before. -/
theorem c28_multiple_inheritance_changes_parent : ∃ h h' p v, unwrap 8 0 h = (.ok 0, h') ∧
    (∃ b, h.base p = some b ∧ b.unwrapped = true) ∧ Accepts exE h p v ∧ Rejects exE h' p v :=
  ⟨exTwoParents, _, 1, .map [("x", .int 1)], M.run_ok (by decide +kernel), ⟨_, rfl, rfl⟩, ⟨2, by decide +kernel⟩,
    ⟨1, "missing required properties", by decide +kernel⟩⟩

/-- A type that is marked unwrapped. -/
def IsUnwrapped (h : St) (x : Addr) : Prop := ∃ b, h.base x = some b ∧ b.unwrapped = true ∧ b.shape ≠ none

theorem IsUnwrapped.done {h : St} {x : Addr} (hx : IsUnwrapped h x) : doneAt h x := by
  obtain ⟨b, h1, h2, h3⟩ := hx
  refine ⟨b, h1, h2, ?_⟩
  cases hs : b.shape with
  | none => exact absurd hs h3
  | some s => rfl

/-- C28, the part that holds: unwrapping a type with a single parent, when the parent and the types it mentions are
already unwrapped (the order in which references are unwrapped) and it defines no custom facets.  Under the conditions of
C16 the parent, and every other type that shares no cell with the child, keeps its values, and the unwrapped child
accepts only values of the parent. -/
theorem c28_single_parent (E : Ext) {n : Nat} {h h' : St} {a p r : Addr} {b : Base} (hb : h.base a = some b)
    (hu : b.unwrapped = false) (hal : b.alias = none) (hl : b.link = none) (hp : h.slice b.inherits = [p])
    (hpd : IsUnwrapped h p) (hf : h.props b.facetDefs = [])
    (hd : ∀ s x, h.shapeAt a = some s → ShapeEdge h s x → IsUnwrapped h x)
    (hm : MayNarrow E.reMatch h a p) (hap : Apart h a p) (hrun : unwrap (n + 1) a h = (.ok r, h')) :
    (∀ v, Valid E h' p v ↔ Valid E h p v) ∧ (∀ x, Apart h a x → ∀ v, Valid E h' x v ↔ Valid E h x v) ∧
    (∀ v, Valid E h' r v → Valid E h p v) ∧ (∀ v, Valid E h' a v → Valid E h p v) := by
  obtain ⟨i, hi⟩ : ∃ i, b.inherits = some i := by
    cases hi : b.inherits with
    | none => rw [hi] at hp; simp [St.slice] at hp
    | some i => exact ⟨i, rfl⟩
  obtain ⟨h₂, hin, hh'⟩ := unwrap_inherits hb hu hal hl hi (by rw [← hi]; exact hp) hpd.done hf
    (fun s x h1 h2 => (hd s x h1 h2).done) hrun
  have hc := flagged_cosmetic a h
  have hpart : ∀ y l, Part (flagged a h) y l ↔ Part h y l := fun y l => part_of_agree (hc.agree _) l
  have hm' : MayNarrow E.reMatch (flagged a h) a p := hm.transport (hc.agree _) fun x _ hv _ => by
    unfold visitedAt flagged at *
    rw [base_upd]
    cases hx : h.base x with
    | none => rw [hx] at hv; cases hv
    | some bx =>
      rw [hx] at hv
      simp only [Option.map_some] at hv ⊢
      split
      · exact hv
      · exact hv
  have hap' : ∀ x, Apart h a x → Apart (flagged a h) a x := fun x hx l h1 h2 =>
    hx l ((hpart a l).1 h1) ((hpart x l).1 h2)
  have hval : ∀ x v, Valid E h' x v ↔ Valid E h₂ x v := fun x v => by
    rw [hh']
    exact valid_agree (h := h₂) ⟨fun _ _ => rfl, fun _ _ => rfl, fun _ _ => rfl, rfl⟩ v
  have hval0 : ∀ x v, Valid E (flagged a h) x v ↔ Valid E h x v := fun x v => valid_agree (hc.agree _) v
  have N := c16_inherit_narrows E hm' (hap' p hap) hin
  refine ⟨fun v => by rw [hval, N.2.2.1, hval0], fun x hx v => ?_, fun v hv => ?_, fun v hv => ?_⟩
  · rw [hval, c16_others_unchanged E hm' (hap' p hap) hin (hap' x hx), hval0]
  · exact (hval0 p v).1 (N.1 v ((hval r v).1 hv))
  · exact (hval0 p v).1 (N.2.1 v ((hval a v).1 hv))

/-- A string type 0 with the unwrapped parent 1. -/
def exSingle : St :=
  { bases := [{ shape := some (.string { minLength := some 1 }), type := "string", inherits := some 0 },
      { shape := some (.string { maxLength := some 3 }), type := "string", unwrapped := true }]
    slices := [[1]] }

/-- The hypotheses are met, and the child is restricted by both. -/
example : ∃ h', unwrap 3 0 exSingle = (.ok 0, h') ∧ IsUnwrapped exSingle 1 ∧ MayNarrow exE.reMatch exSingle 0 1 ∧
    Apart exSingle 0 1 ∧ Rejects exE h' 0 (.str "abcd") ∧ Rejects exE h' 0 (.str "") ∧ Accepts exE h' 0 (.str "abc") :=
  ⟨_, M.run_ok (by decide +kernel), ⟨_, rfl, rfl, by simp⟩,
    .scalar (t := .string { minLength := some 1 }) (s := .string { maxLength := some 3 }) rfl rfl ⟨_, rfl, rfl⟩ (Or.inl rfl),
    apart_of_cells [0] [] [] [1] [] [] (by decide +kernel) (by decide +kernel) (by decide) (by simp) (by simp),
    ⟨1, "length must be less than", by decide +kernel⟩, ⟨1, "length must be greater than", by decide +kernel⟩,
    ⟨1, by decide +kernel⟩⟩

/-! ## C29 -/

/-- `Node` (0): parent 1 with `maxProperties: 1`, property `next` of type 2, which is declared as a reference to `Node`. -/
def exNode : St :=
  { bases := [{ shape := some (.object { properties := some 0 }), type := "object", inherits := some 0 },
      { shape := some (.object { maxProperties := some 1 }), type := "object" },
      { shape := some (.object {}), type := "object", «alias» := some 0 }]
    slices := [[1]]
    pmaps := [[("next", ⟨"next", 2, false⟩)]] }

/-- C29 (violated): after unwrapping and recursion marking, the recursive type rejects an object with two properties, but
accepts it as the value of its own recursive property. -/
theorem c29_recursive_occurrence_misses_facet : ∃ h h₁ h₂ v, unwrap 8 0 h = (.ok 0, h₁) ∧ mark 8 0 h₁ = (.ok none, h₂) ∧
    h.shapeAt 2 = some (.object {}) ∧ (∃ b, h.base 2 = some b ∧ b.alias = some 0) ∧
    Rejects exE h₂ 0 v ∧ Accepts exE h₂ 0 (.map [("next", v)]) :=
  ⟨exNode, _, _, .map [("a", .nil), ("b", .nil)], M.run_ok (by decide +kernel), M.run_ok (by decide +kernel), rfl,
    ⟨_, rfl, rfl⟩, ⟨1, "object must have not more than", by decide +kernel⟩, ⟨4, by decide +kernel⟩⟩

end GoRaml.Props
