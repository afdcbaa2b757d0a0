import Verif.Lemmas.WholeClone

/-!
# Inheritance and aliases keep a model well-formed and panic only as allowed
-/

namespace GoRaml.Whole

open GoRaml GoRaml.Spec GoRaml.Load

variable {K : Par}

/-! ## Facets -/

theorem out_bind_panic {α β : Type} {o : Out α} {f : α → Out β} {e : String} (h : o.bind f = .panic e) : o = .panic e ∨ ∃ x, o = .ok x ∧ f x = .panic e := by
  cases o with
  | ok x => exact .inr ⟨x, rfl, h⟩
  | err m => cases h
  | panic m => cases h; exact .inl rfl
  | diverge => cases h

theorem out_bind_ok {α β : Type} {o : Out α} {f : α → Out β} {y : β} (h : o.bind f = .ok y) : ∃ x, o = .ok x ∧ f x = .ok y := by
  cases o with
  | ok x => exact ⟨x, rfl, h⟩
  | err m => cases h
  | panic m => cases h
  | diverge => cases h

theorem goEq_panic {x y : GoVal} {e : String} (h : GoVal.goEq x y = .panic e) : Uncomparable e := by
  cases x <;> cases y <;> simp only [GoVal.goEq, Out.panic.injEq, reduceCtorEq] at h <;> simp [Uncomparable, ← h]

theorem enumHas_panic {x : GoVal} {es : List GoVal} {e : String} (h : enumHas x es = .panic e) : Uncomparable e := by
  induction es with
  | nil => cases h
  | cons y es ih =>
    rcases out_bind_panic h with h | ⟨b, _, h⟩
    · exact goEq_panic h
    · cases b
      · exact ih h
      · cases h

theorem compatible_panic {s t : List GoVal} {e : String} (h : isCompatibleEnum s t = .panic e) : Uncomparable e := by
  induction t with
  | nil => cases h
  | cons y es ih =>
    rcases out_bind_panic h with h | ⟨b, _, h⟩
    · exact enumHas_panic h
    · cases b
      · cases h
      · exact ih h

theorem compatible_no_panic {s t : List GoVal} (ht : ∀ v ∈ t, v.isScalarVal = true) (e : String) : isCompatibleEnum s t ≠ .panic e := by
  induction t with
  | nil => intro h; cases h
  | cons y es ih =>
    intro h
    rcases out_bind_panic h with h | ⟨b, _, h⟩
    · obtain ⟨b, hb, _⟩ := enumHas_scalar (ht y (by simp)) s
      rw [hb] at h; cases h
    · cases b
      · cases h
      · exact ih (fun v hv => ht v (by simp [hv])) h

theorem inheritEnum_panic {t s : Option (List GoVal)} (ht : EnumIn K t) {e : String} (h : inheritEnum t s = .panic e) : K.X e := by
  cases t with
  | none => cases h
  | some t =>
    cases s with
    | none => cases h
    | some s =>
      rcases out_bind_panic h with h | ⟨b, _, h⟩
      · rcases K.cmp with k | k
        · exact absurd h (compatible_no_panic (fun v hv => k v (ht t rfl v hv)) e)
        · exact k e (compatible_panic h)
      · cases b <;> cases h

theorem inheritEnum_in {t s r : Option (List GoVal)} (ht : EnumIn K t) (hs : EnumIn K s) (h : inheritEnum t s = .ok r) : EnumIn K r := by
  cases t with
  | none => cases h; exact hs
  | some t =>
    cases s with
    | none => cases h; exact ht
    | some s =>
      obtain ⟨b, _, h⟩ := out_bind_ok h
      cases b
      · cases h
      · cases h; exact ht

theorem inheritLower_panic {α : Type} {lt : α → α → Bool} {t s : Option α} {e : String} : inheritLower lt t s ≠ .panic e := by
  unfold inheritLower
  repeat' split
  all_goals simp

theorem inheritUpper_panic {α : Type} {lt : α → α → Bool} {t s : Option α} {e : String} : inheritUpper lt t s ≠ .panic e := by
  unfold inheritUpper
  repeat' split
  all_goals simp

theorem inheritIntegerFormat_panic {t s : Option String} {e : String} : inheritIntegerFormat t s ≠ .panic e := by
  unfold inheritIntegerFormat
  repeat' split
  all_goals simp

theorem inheritFormat_panic {t s : Option String} {e : String} : inheritFormat t s ≠ .panic e := by
  unfold inheritFormat
  repeat' split
  all_goals simp

theorem integer_inherit {f g : IntegerF} (hf : EnumIn K f.enum) (hg : EnumIn K g.enum) :
    (∀ e, f.inherit g = .panic e → K.X e) ∧ ∀ r, f.inherit g = .ok r → EnumIn K r.enum := by
  refine ⟨fun e h => ?_, fun r h => ?_⟩
  · rcases out_bind_panic h with h | ⟨_, _, h⟩
    · exact absurd h inheritLower_panic
    rcases out_bind_panic h with h | ⟨_, _, h⟩
    · exact absurd h inheritUpper_panic
    rcases out_bind_panic h with h | ⟨_, _, h⟩
    · exact inheritEnum_panic hf h
    rcases out_bind_panic h with h | ⟨_, _, h⟩
    · exact absurd h inheritIntegerFormat_panic
    cases h
  · obtain ⟨_, _, h⟩ := out_bind_ok h
    obtain ⟨_, _, h⟩ := out_bind_ok h
    obtain ⟨_, he, h⟩ := out_bind_ok h
    obtain ⟨_, _, h⟩ := out_bind_ok h
    cases h
    exact inheritEnum_in hf hg he

theorem number_inherit {f g : NumberF} (hf : EnumIn K f.enum) (hg : EnumIn K g.enum) :
    (∀ e, f.inherit g = .panic e → K.X e) ∧ ∀ r, f.inherit g = .ok r → EnumIn K r.enum := by
  refine ⟨fun e h => ?_, fun r h => ?_⟩
  · rcases out_bind_panic h with h | ⟨_, _, h⟩
    · exact absurd h inheritLower_panic
    rcases out_bind_panic h with h | ⟨_, _, h⟩
    · exact absurd h inheritUpper_panic
    rcases out_bind_panic h with h | ⟨_, _, h⟩
    · exact inheritEnum_panic hf h
    rcases out_bind_panic h with h | ⟨_, _, h⟩
    · exact absurd h inheritFormat_panic
    cases h
  · obtain ⟨_, _, h⟩ := out_bind_ok h
    obtain ⟨_, _, h⟩ := out_bind_ok h
    obtain ⟨_, he, h⟩ := out_bind_ok h
    obtain ⟨_, _, h⟩ := out_bind_ok h
    cases h
    exact inheritEnum_in hf hg he

theorem string_inherit {f g : StringF} (hf : EnumIn K f.enum) (hg : EnumIn K g.enum) :
    (∀ e, f.inherit g = .panic e → K.X e) ∧ ∀ r, f.inherit g = .ok r → EnumIn K r.enum := by
  refine ⟨fun e h => ?_, fun r h => ?_⟩
  · rcases out_bind_panic h with h | ⟨_, _, h⟩
    · exact absurd h inheritLower_panic
    rcases out_bind_panic h with h | ⟨_, _, h⟩
    · exact absurd h inheritUpper_panic
    rcases out_bind_panic h with h | ⟨_, _, h⟩
    · exact inheritEnum_panic hf h
    cases h
  · obtain ⟨_, _, h⟩ := out_bind_ok h
    obtain ⟨_, _, h⟩ := out_bind_ok h
    obtain ⟨_, he, h⟩ := out_bind_ok h
    cases h
    exact inheritEnum_in hf hg he

theorem file_inherit {f g : FileF} (hf : EnumIn K f.fileTypes) (hg : EnumIn K g.fileTypes) :
    (∀ e, f.inherit g = .panic e → K.X e) ∧ ∀ r, f.inherit g = .ok r → EnumIn K r.fileTypes := by
  refine ⟨fun e h => ?_, fun r h => ?_⟩
  · rcases out_bind_panic h with h | ⟨_, _, h⟩
    · exact absurd h inheritLower_panic
    rcases out_bind_panic h with h | ⟨_, _, h⟩
    · exact absurd h inheritUpper_panic
    rcases out_bind_panic h with h | ⟨_, _, h⟩
    · exact inheritEnum_panic hf h
    cases h
  · obtain ⟨_, _, h⟩ := out_bind_ok h
    obtain ⟨_, _, h⟩ := out_bind_ok h
    obtain ⟨_, he, h⟩ := out_bind_ok h
    cases h
    exact inheritEnum_in hf hg he

theorem leafInherit_fine {t s : Shape} (ht : ShapeFine K t) (hs : ShapeFine K s) :
    (∀ e, leafInherit t s = .panic e → K.X e) ∧ ∀ h r, leafInherit t s = .ok r → ShapeIn h r ∧ ShapeFine K r := by
  unfold leafInherit
  split
  · exact ⟨fun e h => (out_bind_panic h).elim ((string_inherit ht hs).1 e) (fun ⟨_, _, h⟩ => by cases h),
      fun _ r h => by obtain ⟨x, hx, h⟩ := out_bind_ok h; cases h; exact ⟨trivial, (string_inherit ht hs).2 x hx⟩⟩
  · exact ⟨fun e h => (out_bind_panic h).elim ((integer_inherit ht hs).1 e) (fun ⟨_, _, h⟩ => by cases h),
      fun _ r h => by obtain ⟨x, hx, h⟩ := out_bind_ok h; cases h; exact ⟨trivial, (integer_inherit ht hs).2 x hx⟩⟩
  · exact ⟨fun e h => (out_bind_panic h).elim ((number_inherit ht hs).1 e) (fun ⟨_, _, h⟩ => by cases h),
      fun _ r h => by obtain ⟨x, hx, h⟩ := out_bind_ok h; cases h; exact ⟨trivial, (number_inherit ht hs).2 x hx⟩⟩
  · exact ⟨fun e h => (out_bind_panic h).elim ((file_inherit ht hs).1 e) (fun ⟨_, _, h⟩ => by cases h),
      fun _ r h => by obtain ⟨x, hx, h⟩ := out_bind_ok h; cases h; exact ⟨trivial, (file_inherit ht hs).2 x hx⟩⟩
  · exact ⟨fun e h => (out_bind_panic h).elim (inheritEnum_panic ht) (fun ⟨_, _, h⟩ => by cases h),
      fun _ r h => by obtain ⟨x, hx, h⟩ := out_bind_ok h; cases h; exact ⟨trivial, inheritEnum_in ht hs hx⟩⟩
  · exact ⟨fun e h => (out_bind_panic h).elim (fun h => absurd h inheritFormat_panic) (fun ⟨_, _, h⟩ => by cases h),
      fun _ r h => by obtain ⟨x, hx, h⟩ := out_bind_ok h; cases h; exact ⟨trivial, trivial⟩⟩
  all_goals
    first
    | exact ⟨fun e h => (by cases h), fun _ r h => (by cases h; exact ⟨trivial, trivial⟩)⟩
    | exact ⟨fun e h => (by cases h), fun _ r h => (by cases h)⟩
    | exact ⟨fun e h => (by split at h <;> cases h), fun _ r h => (by split at h <;> cases h; exact ⟨trivial, trivial⟩)⟩

theorem bounds_panic {f g : ArrayF} {e : String} : f.inheritBounds g ≠ .panic e := by
  intro h
  rcases out_bind_panic h with h | ⟨_, _, h⟩
  · exact inheritLower_panic h
  rcases out_bind_panic h with h | ⟨_, _, h⟩
  · exact inheritUpper_panic h
  split at h <;> cases h

theorem bounds_items {f g r : ArrayF} (h : f.inheritBounds g = .ok r) : r.items = f.items := by
  obtain ⟨_, _, h⟩ := out_bind_ok h
  obtain ⟨_, _, h⟩ := out_bind_ok h
  split at h <;> cases h <;> rfl

theorem own_panic {f g : ObjectF} {e : String} : f.inheritOwn g ≠ .panic e := by
  intro h
  rcases out_bind_panic h with h | ⟨_, _, h⟩
  · exact inheritLower_panic h
  rcases out_bind_panic h with h | ⟨_, _, h⟩
  · exact inheritUpper_panic h
  cases h

theorem own_same {f g r : ObjectF} (h : f.inheritOwn g = .ok r) :
    r.properties = f.properties ∧ r.patternProperties = f.patternProperties ∧ r.discriminatorValue = f.discriminatorValue := by
  obtain ⟨_, _, h⟩ := out_bind_ok h
  obtain ⟨_, _, h⟩ := out_bind_ok h
  cases h
  exact ⟨rfl, rfl, rfl⟩

/-! ## Inheritance -/

/-- What the recursive call of an inheriting function does. -/
def IRec (K : Par) (rec : Addr → Addr → M St Addr) : Prop := ∀ a b s, Wf K s → IsBase s a → IsBase s b → Fine K (rec a b) s fun c s' => IsBase s' c

theorem Fine.done {α : Type} {m : M St α} {s : St} {Q : α → St → Prop} (h : Fine K m s Q) : Fine K m s fun _ _ => True := Safe.post h fun _ _ _ _ _ => trivial

theorem OMap_get_mem {β : Type} {m : OMap β} {k : String} {v : β} (h : OMap.get m k = some v) : ∃ j, (j, v) ∈ m := by
  induction m with
  | nil => cases h
  | cons x m ih =>
    obtain ⟨j, w⟩ := x
    unfold OMap.get at h
    split at h
    · cases h; exact ⟨j, by simp⟩
    · obtain ⟨i, hi⟩ := ih h; exact ⟨i, by simp [hi]⟩

section
variable {rec : Addr → Addr → M St Addr} (hr : IRec K rec) {s : St} {a b : Addr}
include hr

theorem inheritArray_fine (hw : Wf K s) : Fine K (inheritArray rec a b) s fun _ _ => True := by
  refine Safe.get ?_
  refine Fine.bind (Q := fun _ _ => True) ?_ fun _ s1 hw1 _ _ => ?_
  · split
    · rename_i items _ _
      exact Fine.setArray hw (hw.arrayAt b)
    · rename_i i j hi hj
      exact Fine.bind (hr i j s hw (hw.arrayAt a i hi) (hw.arrayAt b j hj)) fun _ _ hw' _ _ => Fine.ret hw' trivial
    · exact Fine.ret hw trivial
  · refine Safe.get ?_
    refine Fine.bind (Fine.lift (Q := fun f s' => IfSome (IsBase s') f.items) hw1 (fun e he => absurd he bounds_panic)
      fun f hf => by rw [bounds_items hf]; exact hw1.arrayAt a) fun f s2 hw2 _ hq => Fine.setArray hw2 hq

theorem inheritProp_fine {i : Nat} {kp : String × Property} (hw : Wf K s) (hk : IsBase s kp.2.base) : Fine K (inheritProp rec i kp) s fun _ _ => True := by
  refine Safe.get ?_
  split
  · rename_i tp htp
    obtain ⟨j, hj⟩ := OMap_get_mem htp
    split
    · exact Fine.err hw
    · exact Fine.bind (hr _ _ s hw (hw.propsOf hj) hk) fun _ _ hw' _ _ => Fine.ret hw' trivial
  · exact Fine.setProp hw hk

theorem inheritPatProp_fine {i : Nat} {kp : String × PatternProperty} (hw : Wf K s) (hk : IsBase s kp.2.base) :
    Fine K (inheritPatProp rec i kp) s fun _ _ => True := by
  refine Safe.get ?_
  split
  · rename_i tp htp
    obtain ⟨j, hj⟩ := OMap_get_mem htp
    exact Fine.bind (hr _ _ s hw (hw.patPropsOf hj) hk) fun _ _ hw' _ _ => Fine.ret hw' trivial
  · exact Fine.setPatProp hw hk

theorem inheritProperties_fine (hw : Wf K s) : Fine K (inheritProperties rec a b) s fun _ _ => True := by
  refine Safe.get ?_
  split
  · exact Fine.setObject hw ⟨(hw.objectAt b).1.1, (hw.objectAt a).1.2⟩ (hw.objectAt a).2
  · exact Fine.ret hw trivial
  · exact Safe.forEach Bigger.refl (fun _ _ _ h k => Bigger.trans h k) (Q := fun _ => True) (fun _ _ => trivial) hw
      fun x hx s' hw' g => inheritProp_fine hr hw' (g.isBase (hw.propsOf hx))

theorem inheritPatternProperties_fine (hw : Wf K s) : Fine K (inheritPatternProperties rec a b) s fun _ _ => True := by
  refine Safe.get ?_
  split
  · exact Fine.setObject hw ⟨(hw.objectAt a).1.1, (hw.objectAt b).1.2⟩ (hw.objectAt a).2
  · exact Fine.ret hw trivial
  · exact Safe.forEach Bigger.refl (fun _ _ _ h k => Bigger.trans h k) (Q := fun _ => True) (fun _ _ => trivial) hw
      fun x hx s' hw' g => inheritPatProp_fine hr hw' (g.isBase (hw.patPropsOf hx))

theorem inheritObject_fine (hw : Wf K s) : Fine K (inheritObject rec a b) s fun _ _ => True := by
  refine Safe.get ?_
  refine Fine.bind (Fine.lift (Q := fun f s' => ShapeIn s' (.object f) ∧ K.V f.discriminatorValue) hw (fun e he => absurd he own_panic)
    fun f hf => ?_) fun f s1 hw1 _ hq => ?_
  · obtain ⟨e1, e2, e3⟩ := own_same hf
    have := hw.objectAt a
    exact ⟨⟨e1 ▸ this.1.1, e2 ▸ this.1.2⟩, e3 ▸ this.2⟩
  refine Fine.bind (Fine.setObject hw1 hq.1 hq.2) fun _ s2 hw2 _ _ => ?_
  exact Fine.bind (inheritProperties_fine hr hw2) fun _ s3 hw3 _ _ => inheritPatternProperties_fine hr hw3

theorem inheritClone_fine (hw : Wf K s) (ha : IsBase s a) (hb : IsBase s b) : Fine K (inheritClone rec a b) s fun c s' => IsBase s' c := by
  refine Safe.get ?_
  refine Fine.bind (cloneDetached_fine hw ha) fun c s1 hw1 g1 hc => ?_
  refine Fine.bind (Fine.newID hw1) fun id s2 hw2 g2 _ => ?_
  refine Fine.bind (Fine.upd hw2 fun x _ hx => ⟨{ hx.ptrs with }, hx.shape, ⟨hx.vals.example, hx.vals.examples, hx.vals.default⟩⟩) fun _ s3 hw3 g3 _ => ?_
  have g13 := g2.trans g3
  exact hr c b s3 hw3 (g13.isBase hc) ((g1.trans g13).isBase hb)

theorem inheritMember_fine : ∀ {ts : List Addr} {s : St}, Wf K s → IsBase s b → (∀ t ∈ ts, IsBase s t) →
    Fine K (inheritMember rec b ts) s fun l s' => ∀ c ∈ l, IsBase s' c
  | [], s, hw, _, _ => Fine.ret hw fun _ h => by cases h
  | t :: ts, s, hw, hb, ht => by
    unfold inheritMember
    refine Fine.bind (Fine.getBase hw hb) fun sb s1 hw1 g1 q1 => ?_
    refine Fine.bind (Fine.getBase hw1 (g1.isBase (ht t (by simp)))) fun tb s2 hw2 g2 q2 => ?_
    have g02 := g1.trans g2
    split
    · refine Fine.bind (Safe.attempt (inheritClone_fine hr hw2 (g02.isBase (ht t (by simp))) (g02.isBase hb))) fun r s3 hw3 g3 q3 => ?_
      have g03 := g02.trans g3
      refine Fine.bind (inheritMember_fine hw3 (g03.isBase hb) fun x hx => g03.isBase (ht x (by simp [hx]))) fun rest s4 hw4 g4 q4 => ?_
      cases r with
      | ok m =>
        exact Fine.ret hw4 fun c hc => (List.mem_cons.1 hc).elim (fun e => e ▸ g4.isBase (q3 m rfl)) (q4 c)
      | error e => exact Fine.ret hw4 q4
    · exact inheritMember_fine hw2 (g02.isBase hb) fun x hx => g02.isBase (ht x (by simp [hx]))

theorem inheritMembers_fine {ts : List Addr} : ∀ {ss : List Addr} {s : St}, Wf K s → (∀ t ∈ ts, IsBase s t) → (∀ t ∈ ss, IsBase s t) →
    Fine K (inheritMembers rec ts ss) s fun l s' => ∀ c ∈ l, IsBase s' c
  | [], s, hw, _, _ => Fine.ret hw fun _ h => by cases h
  | x :: ss, s, hw, ht, hs => by
    unfold inheritMembers
    refine Fine.bind (inheritMember_fine hr hw (hs x (by simp)) ht) fun l s1 hw1 g1 q1 => ?_
    split
    · exact Fine.err hw1
    · refine Fine.bind (inheritMembers_fine hw1 (fun t h => g1.isBase (ht t h)) fun t h => g1.isBase (hs t (by simp [h]))) fun rest s2 hw2 g2 q2 => ?_
      exact Fine.ret hw2 fun c hc => (List.mem_append.1 hc).elim (fun h => g2.isBase (q1 c h)) (q2 c)

omit hr in
theorem Wf.unionAt (hw : Wf K s) (a : Addr) : IfSome (· < s.slices.length) (unionAt s a).1 := by
  unfold GoRaml.unionAt
  split
  · rename_i l e hf; exact (hw.shapeAt hf).1
  · intro x hx; cases hx

theorem inheritUnion_fine (hw : Wf K s) : Fine K (inheritUnion rec a b) s fun _ _ => True := by
  refine Safe.get ?_
  simp only
  split
  · exact Fine.setShape hw (hw.unionAt b) trivial
  · refine Fine.bind (inheritMembers_fine hr hw (fun t h => hw.sliceOf h) fun t h => hw.sliceOf h) fun l s1 hw1 g1 q1 => ?_
    refine Fine.bind (Fine.newSlice hw1 q1) fun i s2 hw2 g2 q2 => ?_
    exact Fine.setShape hw2 (fun j hj => by cases hj; exact q2) trivial

theorem inheritShape_fine {t u : Shape} (hw : Wf K s) (ht : ShapeFine K t) (hu : ShapeIn s u ∧ ShapeFine K u) :
    Fine K (inheritShape rec a b t u) s fun _ _ => True := by
  unfold inheritShape
  split
  · exact inheritArray_fine hr hw
  · exact inheritObject_fine hr hw
  · rename_i hd
    refine Fine.bind (Fine.getShape hw hu.1) fun sh s1 hw1 _ _ => ?_
    split
    · exact inheritObject_fine hr hw1
    · exact Fine.err hw1
  · exact inheritUnion_fine hr hw
  · exact Fine.err hw
  · exact Fine.err hw
  · exact Fine.err hw
  · have hl := leafInherit_fine ht hu.2
    exact Fine.bind (Fine.lift (Q := fun r s' => ShapeIn s' r ∧ ShapeFine K r) hw hl.1 fun r hr => hl.2 s r hr) fun r s1 hw1 _ q => Fine.setShape hw1 q.1 q.2

theorem unionSourceLoop_fine : ∀ {ms : List Addr} {s : St}, Wf K s → IsBase s a → (∀ m ∈ ms, IsBase s m) →
    Fine K (unionSourceLoop rec a ms) s fun r s' => ∀ l, r = some l → ∀ c ∈ l, IsBase s' c
  | [], s, hw, _, _ => Fine.ret hw fun l h c hc => by cases h; cases hc
  | m :: ms, s, hw, ha, hm => by
    unfold unionSourceLoop
    refine Fine.bind (Fine.getBase hw (hm m (by simp))) fun mb s1 hw1 g1 _ => ?_
    split
    · exact Fine.ret hw1 fun l h => by cases h
    · refine Fine.bind (Fine.getBase hw1 (g1.isBase ha)) fun sb s2 hw2 g2 _ => ?_
      have g02 := g1.trans g2
      split
      · refine Fine.bind (Safe.attempt (inheritClone_fine hr hw2 (g02.isBase ha) (g02.isBase (hm m (by simp))))) fun r s3 hw3 g3 q3 => ?_
        have g03 := g02.trans g3
        refine Fine.bind (unionSourceLoop_fine hw3 (g03.isBase ha) fun x hx => g03.isBase (hm x (by simp [hx]))) fun rest s4 hw4 g4 q4 => ?_
        split
        · rename_i c l
          refine Fine.ret hw4 fun l' h' x hx => ?_
          cases h'
          exact (List.mem_cons.1 hx).elim (fun e => e ▸ g4.isBase (q3 c rfl)) (q4 l rfl x)
        · rename_i l
          exact Fine.ret hw4 fun l' h' x hx => by cases h'; exact q4 l rfl x hx
        · exact Fine.ret hw4 fun l' h' => by cases h'
      · exact unionSourceLoop_fine hw2 (g02.isBase ha) fun x hx => g02.isBase (hm x (by simp [hx]))

theorem inheritUnionSource_fine {ms : List Addr} (hw : Wf K s) (ha : IsBase s a) (hm : ∀ m ∈ ms, IsBase s m) :
    Fine K (inheritUnionSource rec a ms) s fun c s' => IsBase s' c := by
  refine Fine.bind (unionSourceLoop_fine hr hw ha hm) fun r s1 hw1 g1 q1 => ?_
  split
  · exact Fine.ret hw1 (g1.isBase ha)
  · exact Fine.err hw1
  · rename_i c; exact Fine.ret hw1 (q1 _ rfl c (by simp))
  · rename_i l _ _
    refine Fine.bind (Fine.newSlice hw1 (q1 l rfl)) fun i s2 hw2 g2 q2 => ?_
    refine Fine.bind (Fine.upd hw2 fun x _ hx => ?_) fun _ s3 hw3 g3 _ => Fine.ret hw3 ((g1.trans (g2.trans g3)).isBase ha)
    exact ⟨{ hx.ptrs with shape := fun y hy => by cases hy; exact fun j hj => by cases hj; exact q2 }, ⟨_, rfl, trivial⟩,
      ⟨hx.vals.example, hx.vals.examples, hx.vals.default⟩⟩

theorem unionTargetLoop_fine : ∀ {ms : List Addr} {s : St}, Wf K s → IsBase s a → (∀ m ∈ ms, IsBase s m) →
    Fine K (unionTargetLoop rec a ms) s fun _ _ => True
  | [], s, hw, _, _ => Fine.ret hw trivial
  | m :: ms, s, hw, ha, hm => by
    unfold unionTargetLoop
    refine Fine.bind (Safe.attempt (hr m a s hw (hm m (by simp)) ha)) fun r s1 hw1 g1 _ => ?_
    refine Fine.bind (unionTargetLoop_fine hw1 (g1.isBase ha) fun x hx => g1.isBase (hm x (by simp [hx]))) fun f s2 hw2 _ _ => ?_
    cases r <;> exact Fine.ret hw2 trivial

theorem inheritUnionTarget_fine {ms : List Addr} (hw : Wf K s) (ha : IsBase s a) (hm : ∀ m ∈ ms, IsBase s m) :
    Fine K (inheritUnionTarget rec a ms) s fun c s' => IsBase s' c := by
  refine Fine.bind (unionTargetLoop_fine hr hw ha hm) fun f s1 hw1 g1 _ => ?_
  split
  · exact Fine.err hw1
  · exact Fine.ret hw1 (g1.isBase ha)

omit hr in
theorem BaseFine.flag {b' b : Base} (h : BaseFine K s b) (h1 : b'.shape = b.shape) (h2 : b'.facets = b.facets) (h3 : b'.facetDefs = b.facetDefs)
    (h4 : b'.alias = b.alias) (h5 : b'.inherits = b.inherits) (h6 : b'.link = b.link) (h7 : b'.example_ = b.example_) (h8 : b'.examples = b.examples)
    (h9 : b'.default = b.default) : BaseFine K s b' :=
  ⟨⟨h1 ▸ h.ptrs.shape, h2 ▸ h.ptrs.facets, h3 ▸ h.ptrs.facetDefs, h4 ▸ h.ptrs.alias, h5 ▸ h.ptrs.inherits, h6 ▸ h.ptrs.link⟩, h1 ▸ h.shape,
    ⟨h7 ▸ h.vals.example, h8 ▸ h.vals.examples, h9 ▸ h.vals.default⟩⟩

omit hr in
theorem Fine.visited {v : Bool} (hw : Wf K s) : Fine K (Heap.updBase a fun x => { x with visited := v }) s fun _ _ => True :=
  (Fine.upd (f := fun x => { x with visited := v }) hw fun _ _ hx => hx.flag rfl rfl rfl rfl rfl rfl rfl rfl rfl).done

theorem inheritDispatch_fine (hw : Wf K s) (ha : IsBase s a) (hb : IsBase s b) : Fine K (inheritDispatch rec a b) s fun c s' => IsBase s' c := by
  refine Fine.bind (Fine.getBase hw ha) fun x s1 hw1 g1 q1 => ?_
  obtain ⟨rfl, hx, fx⟩ := q1
  refine Fine.bind (Fine.getBase hw1 hb) fun y s2 hw2 g2 q2 => ?_
  obtain ⟨rfl, hy, fy⟩ := q2
  obtain ⟨t, ht, ft⟩ := fx.shape
  obtain ⟨u, hu, fu⟩ := fy.shape
  have it := fx.ptrs.shape t ht
  have iu := fy.ptrs.shape u hu
  have last : Fine K (M.bind (inheritShape rec a b t u) fun _ => M.bind (Heap.updBase b fun x => { x with visited := false }) fun _ => M.ret a) s2
      fun c s' => IsBase s' c :=
    Fine.bind (inheritShape_fine hr hw ft ⟨iu, fu⟩) fun _ s3 hw3 g3 _ => Fine.bind (Fine.visited hw3) fun _ s4 hw4 g4 _ => Fine.ret hw4 ((g3.trans g4).isBase ha)
  have uu : Fine K (M.bind (inheritUnion rec a b) fun _ => M.bind (Heap.updBase b fun x => { x with visited := false }) fun _ => M.ret a) s2
      fun c s' => IsBase s' c :=
    Fine.bind (inheritUnion_fine hr hw) fun _ s3 hw3 g3 _ => Fine.bind (Fine.visited hw3) fun _ s4 hw4 g4 _ => Fine.ret hw4 ((g3.trans g4).isBase ha)
  rw [ht, hu]
  cases u with
  | any => exact Fine.ret hw ha
  | union l e =>
    cases t with
    | union l' e' => exact uu
    | _ => exact inheritUnionSource_fine hr hw ha fun m hm => hw.sliceOf hm
  | _ =>
    cases t with
    | union l' e' => exact inheritUnionTarget_fine hr hw ha fun m hm => hw.sliceOf hm
    | _ => exact last

omit hr in
theorem inheritFacets_fine (hw : Wf K s) (ha : IsBase s a) (hb : IsBase s b) : Fine K (inheritFacets a b) s fun _ _ => True := by
  refine Fine.bind (Fine.getBase hw ha) fun x s1 hw1 g1 q1 => ?_
  obtain ⟨rfl, hx, fx⟩ := q1
  refine Fine.bind (Fine.getBase hw1 hb) fun y s2 hw2 g2 q2 => ?_
  obtain ⟨rfl, hy, fy⟩ := q2
  obtain ⟨i, hi, _⟩ := fx.ptrs.facets
  obtain ⟨j, hj, _⟩ := fy.ptrs.facets
  rw [hi, hj]
  refine Safe.forEach Bigger.refl (fun _ _ _ h k => Bigger.trans h k) (Q := fun _ => True) (fun _ _ => trivial) hw fun kv hk s' hw' g => ?_
  unfold Safe inheritFacet
  cases OMap.get (s'.facetMap (some i)) kv.1 with
  | some v => exact ⟨hw', Bigger.refl _, trivial⟩
  | none => exact Fine.setFacet hw' (hw.facetsOf hk)

end

theorem inherit_fine : ∀ n, IRec K (inherit n)
  | 0 => fun _ _ _ hw _ _ => Fine.diverge hw
  | n + 1 => fun a b s hw ha hb => by
    refine Fine.bind (Fine.getBase hw ha) fun x s1 hw1 g1 q1 => ?_
    obtain ⟨rfl, hx, fx⟩ := q1
    refine Fine.bind (Fine.getBase hw1 hb) fun y s2 hw2 g2 q2 => ?_
    obtain ⟨rfl, hy, fy⟩ := q2
    split
    · exact Fine.ret hw hb
    · refine Fine.bind (Fine.visited hw) fun _ s3 hw3 g3 _ => ?_
      refine Fine.bind (Fine.upd (f := fun x => { x with description := match x.description with | none => y.description | some d => some d }) hw3
        fun _ _ hx => hx.flag rfl rfl rfl rfl rfl rfl rfl rfl rfl).done fun _ s4 hw4 g4 _ => ?_
      have g04 := g3.trans g4
      refine Fine.bind (inheritFacets_fine hw4 (g04.isBase ha) (g04.isBase hb)) fun _ s5 hw5 g5 _ => ?_
      exact inheritDispatch_fine (inherit_fine n) hw5 ((g04.trans g5).isBase ha) ((g04.trans g5).isBase hb)

/-! ## Aliases -/

theorem aliasShape_fine {s : St} {t u : Shape} (ht : ShapeFine K t) (hu : ShapeIn s u ∧ ShapeFine K u) :
    (∀ e, aliasShape t u ≠ .panic e) ∧ ∀ r, aliasShape t u = .ok r → ShapeIn s r ∧ ShapeFine K r := by
  unfold aliasShape
  split
  all_goals
    first
    | exact ⟨fun e h => (by cases h), fun r h => (by cases h; exact hu)⟩
    | exact ⟨fun e h => (by cases h), fun r h => (by cases h; exact ⟨trivial, ht⟩)⟩
    | exact ⟨fun e h => (by cases h), fun r h => (by cases h)⟩

theorem aliasTo_fine {s : St} {a b : Addr} (hw : Wf K s) (ha : IsBase s a) (hb : IsBase s b) : Fine K (aliasTo a b) s fun c s' => IsBase s' c := by
  refine Fine.bind (Fine.getShape hw ha) fun t s1 hw1 g1 q1 => ?_
  obtain ⟨rfl, _, it, ft⟩ := q1
  refine Fine.bind (Fine.getShape hw1 hb) fun u s2 hw2 g2 q2 => ?_
  obtain ⟨rfl, _, iu, fu⟩ := q2
  have hal := aliasShape_fine ft ⟨iu, fu⟩
  refine Fine.bind (Fine.lift (Q := fun r s' => ShapeIn s' r ∧ ShapeFine K r) hw (fun e h => absurd h (hal.1 e)) fun r h => hal.2 r h) fun r s3 hw3 g3 q3 => ?_
  refine Fine.bind (Fine.setShape hw3 q3.1 q3.2) fun _ s4 hw4 g4 _ => ?_
  have g04 := g3.trans g4
  refine Fine.bind (Fine.getBase hw4 (g04.isBase hb)) fun src s5 hw5 g5 q5 => ?_
  obtain ⟨rfl, _, fs⟩ := q5
  refine Fine.bind (Fine.upd hw4 fun x _ hx => ?_) fun _ s6 hw6 g6 _ => Fine.ret hw6 ((g04.trans g6).isBase ha)
  exact ⟨⟨hx.ptrs.shape, fs.ptrs.facets, fs.ptrs.facetDefs, fs.ptrs.alias, fs.ptrs.inherits, hx.ptrs.link⟩, hx.shape,
    ⟨fs.vals.example, fs.vals.examples, fs.vals.default⟩⟩

end GoRaml.Whole
