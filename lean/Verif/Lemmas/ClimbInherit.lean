import Verif.Model.UnwrapAll
import Verif.Lemmas.Monad
import Verif.Lemmas.StopsInherit

/-!
# What inheritance leaves as it was (C81)
-/

namespace GoRaml.Climb

open GoRaml

/-- What matters of the dynamic type of a shape. -/
def tag : Shape → Nat
  | .any => 0
  | .union _ _ => 1
  | .recursive _ => 2
  | _ => 3

/-- What a type says of itself, besides its facets and its description. -/
def own (b : Base) : (String × Option String × String × Option Example) × Option Examples × Option GoVal × Option Bool × OMap Nat × String :=
  ((b.name, b.displayName, b.type, b.example_), b.examples, b.default, b.required, b.domainProps, b.location)

/-- What happens to a type: its line and its dynamic type stay, and it is left visited only if it was, if its type is `any`, or in the cases in `v`. -/
structure R (v : Prop) (b b' : Base) : Prop where
  own : own b' = own b
  descr : ∀ d, b.description = some d → b'.description = some d
  inherits : b'.inherits = b.inherits
  «alias» : b'.alias = b.alias
  link : b'.link = b.link
  unwrapped : b'.unwrapped = b.unwrapped
  tag : b'.shape.map tag = b.shape.map tag
  visited : b'.visited = true → b.visited = true ∨ b'.shape.map Climb.tag = some 0 ∨ v

/-- The same for all types, and the lists of parents, the data types and the libraries stay. -/
structure T (V : Addr → Prop) (s s' : St) : Prop where
  base : ∀ x b', s'.base x = some b' → ∃ b, s.base x = some b ∧ R (V x) b b'
  slices : s'.slices = s.slices
  dts : (s'.dts, s'.libs) = (s.dts, s.libs)

/-- No type is a union. -/
def Plain (s : St) : Prop := ∀ x b, s.base x = some b → b.shape.map tag ≠ some 1

section
variable {V : Addr → Prop} {s s1 s2 : St}

theorem R.refl {v : Prop} (b : Base) : R v b b := ⟨rfl, fun _ h => h, rfl, rfl, rfl, rfl, rfl, .inl⟩

theorem R.trans {v : Prop} {b b1 b2 : Base} (h : R v b b1) (k : R v b1 b2) : R v b b2 :=
  ⟨k.own.trans h.own, fun d e => k.descr d (h.descr d e), k.inherits.trans h.inherits, k.alias.trans h.alias, k.link.trans h.link, k.unwrapped.trans h.unwrapped, k.tag.trans h.tag, fun e => by
    rcases k.visited e with e | e | e
    · rcases h.visited e with e | e | e
      · exact .inl e
      · exact .inr (.inl (k.tag.trans e))
      · exact .inr (.inr e)
    · exact .inr (.inl e)
    · exact .inr (.inr e)⟩

theorem T.refl (s : St) : T V s s := ⟨fun _ b h => ⟨b, h, .refl b⟩, rfl, rfl⟩

theorem T.trans (h : T V s s1) (k : T V s1 s2) : T V s s2 :=
  ⟨fun x b2 h2 => by
    obtain ⟨b1, h1, r1⟩ := k.base x b2 h2
    obtain ⟨b, hb, r⟩ := h.base x b1 h1
    exact ⟨b, hb, r.trans r1⟩, k.slices.trans h.slices, k.dts.trans h.dts⟩

theorem T.weaken {V' : Addr → Prop} (h : T V s s1) (hv : ∀ x, V x → V' x) : T V' s s1 :=
  ⟨fun x b' hb => by
    obtain ⟨b, h1, r⟩ := h.base x b' hb
    exact ⟨b, h1, r.own, r.descr, r.inherits, r.alias, r.link, r.unwrapped, r.tag, fun e => (r.visited e).imp id (Or.imp id (hv x))⟩, h.slices, h.dts⟩

theorem T.plain (h : T V s s1) (hp : Plain s) : Plain s1 := fun x b' hb e => by
  obtain ⟨b, h1, r⟩ := h.base x b' hb
  exact hp x b h1 (r.tag.symm.trans e)

theorem T.tables {s' : St} (h1 : s'.bases = s.bases) (h2 : s'.slices = s.slices) (h3 : (s'.dts, s'.libs) = (s.dts, s.libs)) : T V s s' :=
  ⟨fun x b hb => ⟨b, by unfold St.base at hb ⊢; rw [← h1]; exact hb, .refl b⟩, h2, h3⟩

theorem base_modify {a x : Addr} {f : Base → Base} : ({ s with bases := s.bases.modify a f } : St).base x = (s.base x).map fun b => if a = x then f b else b := by
  simp only [St.base, List.getElem?_modify]
  cases s.bases[x]? <;> simp

theorem modify_back {a : Addr} {f : Base → Base} {x : Addr} {b' : Base} (hb : ({ s with bases := s.bases.modify a f } : St).base x = some b') :
    ∃ b, s.base x = some b ∧ (a ≠ x ∧ b' = b ∨ a = x ∧ b' = f b) := by
  rw [base_modify] at hb
  cases hx : s.base x with
  | none => rw [hx] at hb; cases hb
  | some b =>
    rw [hx] at hb
    simp only [Option.map_some, Option.some.injEq] at hb
    refine ⟨b, rfl, ?_⟩
    by_cases e : a = x
    · rw [if_pos e] at hb; exact .inr ⟨e, hb.symm⟩
    · rw [if_neg e] at hb; exact .inl ⟨e, hb.symm⟩

theorem T.upd {a : Addr} {f : Base → Base} (h : ∀ b, s.base a = some b → R (V a) b (f b)) : T V s { s with bases := s.bases.modify a f } :=
  ⟨fun x b' hb => by
    obtain ⟨b, h1, ⟨_, rfl⟩ | ⟨rfl, rfl⟩⟩ := modify_back hb
    · exact ⟨_, h1, .refl _⟩
    · exact ⟨b, h1, h b h1⟩, rfl, rfl⟩

/-- A run that returns keeps all that. -/
def Keeps {α : Type} (V : Addr → Prop) (m : M St α) (s : St) : Prop := ∀ x s', m s = (.ok x, s') → T V s s'

theorem Keeps.bind {α β : Type} {m : M St α} {f : α → M St β} (h : Keeps V m s) (k : ∀ x s', m s = (.ok x, s') → T V s s' → Keeps V (f x) s') : Keeps V (M.bind m f) s := by
  intro y s2 e
  obtain ⟨x, s1, e1, e2⟩ := M.bind_ok.1 e
  exact (h x s1 e1).trans (k x s1 e1 (h x s1 e1) y s2 e2)

theorem Keeps.ret {α : Type} {x : α} : Keeps V (M.ret x) s := fun _ _ e => by cases e; exact .refl s
theorem Keeps.err {α : Type} {e : String} : Keeps V (M.err e : M St α) s := fun _ _ h => by cases h
theorem Keeps.panic {α : Type} {e : String} : Keeps V (M.panic e : M St α) s := fun _ _ h => by cases h
theorem Keeps.lift {α : Type} {o : Out α} : Keeps V (M.lift o) s := fun _ _ h => by
  unfold M.lift at h
  cases (Prod.mk.inj h).2
  exact .refl s
theorem Keeps.get : Keeps V M.get s := fun _ _ h => by cases h; exact .refl s

theorem getBase_ok {a : Addr} {s' : St} {b : Base} (h : Heap.getBase a s = (.ok b, s')) : s' = s ∧ s.base a = some b := by
  unfold Heap.getBase at h
  cases hb : s.base a with
  | none => rw [hb] at h; cases h
  | some b' => rw [hb] at h; cases h; exact ⟨rfl, rfl⟩

theorem getShape_ok {a : Addr} {s' : St} {q : Shape} (h : Heap.getShape a s = (.ok q, s')) : s' = s ∧ s.shapeAt a = some q := by
  unfold Heap.getShape at h
  cases hb : s.shapeAt a with
  | none => rw [hb] at h; cases h
  | some b' => rw [hb] at h; cases h; exact ⟨rfl, rfl⟩

theorem Keeps.getBase {a : Addr} : Keeps V (Heap.getBase a) s := fun _ _ h => by
  obtain ⟨rfl, _⟩ := getBase_ok h
  exact .refl _
theorem Keeps.getShape {a : Addr} : Keeps V (Heap.getShape a) s := fun _ _ h => by
  obtain ⟨rfl, _⟩ := getShape_ok h
  exact .refl _

theorem Keeps.upd {a : Addr} {f : Base → Base} (h : ∀ b, s.base a = some b → R (V a) b (f b)) : Keeps V (Heap.updBase a f) s := fun _ _ e => by
  cases e
  exact .upd h

theorem Keeps.tables {α : Type} {m : M St α} (h : ∀ x s', m s = (.ok x, s') → s'.bases = s.bases ∧ s'.slices = s.slices ∧ (s'.dts, s'.libs) = (s.dts, s.libs)) : Keeps V m s :=
  fun x s' e => .tables (h x s' e).1 (h x s' e).2.1 (h x s' e).2.2

theorem Keeps.forEach {α : Type} {f : α → M St Unit} : ∀ (l : List α) {s : St}, Plain s → (∀ x s', Plain s' → Keeps V (f x) s') → Keeps V (M.forEach f l) s
  | [], _, _, _ => .ret
  | x :: l, s, hp, h => .bind (h x s hp) fun _ _ _ t => Keeps.forEach l (t.plain hp) h

theorem setArray_keeps {a : Addr} {f : ArrayF} : Keeps V (setArray a f) s := .upd fun b _ => by
  split
  · rename_i hb
    exact ⟨rfl, fun _ h => h, rfl, rfl, rfl, rfl, by rw [hb]; rfl, .inl⟩
  · exact .refl b

theorem setObject_keeps {a : Addr} {f : ObjectF} : Keeps V (setObject a f) s := .upd fun b _ => by
  split
  · rename_i hb
    exact ⟨rfl, fun _ h => h, rfl, rfl, rfl, rfl, by rw [hb]; rfl, .inl⟩
  · exact .refl b

theorem setShape_keeps {a : Addr} {q : Shape} (h : ∀ b, s.base a = some b → b.shape.map tag = some (tag q)) : Keeps V (setShape a q) s := .upd fun b hb =>
  ⟨rfl, fun _ h => h, rfl, rfl, rfl, rfl, (h b hb).symm, .inl⟩

theorem leafInherit_tag {t u q : Shape} (h : leafInherit t u = .ok q) : tag q = tag t := by
  have key : ∀ {α : Type} {o : Out α} {c : α → Shape}, (∀ x, tag (c x) = tag t) → (o.bind fun r => .ok (c r)) = .ok q → tag q = tag t := by
    intro α o c hc ho
    cases o with
    | ok x => simp only [Out.bind, Out.ok.injEq] at ho; subst ho; exact hc x
    | err e => cases ho
    | panic e => cases ho
    | diverge => cases ho
  unfold leafInherit at h
  split at h
  case h_1 => exact key (c := .string) (fun x => rfl) h
  case h_2 => exact key (c := .integer) (fun x => rfl) h
  case h_3 => exact key (c := .number) (fun x => rfl) h
  case h_4 => exact key (c := .file) (fun x => rfl) h
  case h_5 => exact key (c := .boolean) (fun x => rfl) h
  case h_6 => exact key (c := .datetime) (fun x => rfl) h
  all_goals first
    | (cases h; done)
    | (cases h; rfl)
    | (split at h <;> first | (cases h; done) | (cases h; rfl))

/-- What nested calls do. -/
def Calls (V : Addr → Prop) (rec : Addr → Addr → M St Addr) : Prop := ∀ a b s, Plain s → Keeps V (rec a b) s

variable {rec : Addr → Addr → M St Addr}

theorem inheritArray_keeps (hr : Calls V rec) (hp : Plain s) {a b : Addr} : Keeps V (inheritArray rec a b) s := by
  unfold inheritArray
  refine .bind .get fun h s1 _ t1 => .bind ?_ fun _ s2 _ t2 => .bind .get fun _ s3 _ _ => .bind .lift fun _ _ _ _ => setArray_keeps
  split
  · exact setArray_keeps
  · exact .bind (hr _ _ _ (t1.plain hp)) fun _ _ _ _ => .ret
  · exact .ret

theorem inheritProp_keeps (hr : Calls V rec) (hp : Plain s) {i : Nat} {kp : String × Property} : Keeps V (inheritProp rec i kp) s := by
  unfold inheritProp
  refine .bind .get fun h s1 _ t1 => ?_
  split
  · split
    · exact .err
    · exact .bind (hr _ _ _ (t1.plain hp)) fun _ _ _ _ => .ret
  · exact .tables fun _ _ e => by cases e; exact ⟨rfl, rfl, rfl⟩

theorem inheritProperties_keeps (hr : Calls V rec) (hp : Plain s) {a b : Addr} : Keeps V (inheritProperties rec a b) s := by
  unfold inheritProperties
  refine .bind .get fun h s1 _ t1 => ?_
  split
  · exact setObject_keeps
  · exact .ret
  · exact .forEach _ (t1.plain hp) fun _ _ hp => inheritProp_keeps hr hp

theorem inheritPatProp_keeps (hr : Calls V rec) (hp : Plain s) {i : Nat} {kp : String × PatternProperty} : Keeps V (inheritPatProp rec i kp) s := by
  unfold inheritPatProp
  refine .bind .get fun h s1 _ t1 => ?_
  split
  · exact .bind (hr _ _ _ (t1.plain hp)) fun _ _ _ _ => .ret
  · exact .tables fun _ _ e => by cases e; exact ⟨rfl, rfl, rfl⟩

theorem inheritPatternProperties_keeps (hr : Calls V rec) (hp : Plain s) {a b : Addr} : Keeps V (inheritPatternProperties rec a b) s := by
  unfold inheritPatternProperties
  refine .bind .get fun h s1 _ t1 => ?_
  split
  · exact setObject_keeps
  · exact .ret
  · exact .forEach _ (t1.plain hp) fun _ _ hp => inheritPatProp_keeps hr hp

theorem inheritObject_keeps (hr : Calls V rec) (hp : Plain s) {a b : Addr} : Keeps V (inheritObject rec a b) s := by
  unfold inheritObject
  refine .bind .get fun h s1 _ t1 => .bind .lift fun _ s2 _ t2 => .bind setObject_keeps fun _ s3 _ t3 => ?_
  have hp3 := t3.plain (t2.plain (t1.plain hp))
  exact .bind (inheritProperties_keeps hr hp3) fun _ s4 _ t4 => inheritPatternProperties_keeps hr (t4.plain hp3)

theorem inheritShape_keeps (hr : Calls V rec) (hp : Plain s) {a b : Addr} {t u : Shape} {x : Base} (hb : s.base a = some x) (hs : x.shape = some t) : Keeps V (inheritShape rec a b t u) s := by
  unfold inheritShape
  split
  · exact inheritArray_keeps hr hp
  · exact inheritObject_keeps hr hp
  · refine .bind .getShape fun _ s1 e t1 => ?_
    split
    · exact inheritObject_keeps hr (t1.plain hp)
    · exact .err
  · exact absurd (by rw [hs]; rfl) (hp a x hb)
  · exact .err
  · exact .err
  · exact .err
  · intro y s2 e
    obtain ⟨q, s1, e1, e2⟩ := M.bind_ok.1 e
    obtain ⟨e3, rfl⟩ := Prod.mk.inj e1
    exact setShape_keeps (fun b' hb' => by
      rw [hb] at hb'; cases hb'
      rw [hs, leafInherit_tag e3]; rfl) y s2 e2

theorem inheritFacets_keeps {a b : Addr} (hp : Plain s) : Keeps V (inheritFacets a b) s := by
  unfold inheritFacets
  refine .bind .getBase fun _ s1 _ t1 => .bind .getBase fun _ s2 _ t2 => ?_
  split
  · exact .upd fun _ _ => ⟨rfl, fun _ h => h, rfl, rfl, rfl, rfl, rfl, .inl⟩
  · exact .ret
  · refine Keeps.forEach (f := inheritFacet _) _ (t2.plain (t1.plain hp)) fun kv s' _ => .tables fun _ _ e => ?_
    unfold inheritFacet at e
    split at e
    · cases e; exact ⟨rfl, rfl, rfl⟩
    · cases e; exact ⟨rfl, rfl, rfl⟩


theorem Calls.weaken {V' : Addr → Prop} (hr : Calls V rec) (h : ∀ x, V x → V' x) : Calls V' rec := fun a b s hp x s' e => (hr a b s hp x s' e).weaken h

theorem inherit_keeps : ∀ (n : Nat) (a b : Addr) (s : St), Plain s → ∀ r s', inherit n a b s = (.ok r, s') → T (fun _ => False) s s' ∧ (r = a ∨ (r = b ∧ ∃ c, s.base b = some c ∧ c.visited = true))
  | 0, _, _, _, _, _, _, e => by cases e
  | n + 1, a, b, s, hp, r, s', e => by
    have hr : Calls (· = b) (inherit n) := Calls.weaken (V := fun _ => False) (fun a b s hp r s' e => (inherit_keeps n a b s hp r s' e).1) fun _ h => h.elim
    unfold inherit at e
    obtain ⟨x, s1, e1, ea⟩ := M.bind_ok.1 e
    clear e
    obtain ⟨rfl, hx⟩ := getBase_ok e1
    obtain ⟨src, s2, e1, e⟩ := M.bind_ok.1 ea
    clear ea
    obtain ⟨rfl, hsrc⟩ := getBase_ok e1
    split at e
    · rename_i hv
      cases e; exact ⟨.refl _, .inr ⟨rfl, src, hsrc, hv⟩⟩
    rename_i hv
    obtain ⟨_, s3, e3, ea⟩ := M.bind_ok.1 e
    clear e
    obtain ⟨_, s4, e4, eb⟩ := M.bind_ok.1 ea
    clear ea
    obtain ⟨_, s5, e5, e⟩ := M.bind_ok.1 eb
    clear eb
    have t3 : T (· = b) s2 s3 := by
      cases e3
      exact .upd fun _ _ => ⟨rfl, fun _ h => h, rfl, rfl, rfl, rfl, rfl, fun _ => .inr (.inr rfl)⟩
    have t4 : T (· = b) s3 s4 := by
      cases e4
      exact .upd fun _ _ => ⟨rfl, fun d h => by simp [h], rfl, rfl, rfl, rfl, rfl, .inl⟩
    have t5 : T (· = b) s2 s5 := (t3.trans t4).trans (inheritFacets_keeps ((t3.trans t4).plain hp) _ _ e5)
    have hp5 := t5.plain hp
    have e' := e
    unfold inheritDispatch at e'
    obtain ⟨t, s6, e1, ea⟩ := M.bind_ok.1 e'
    clear e'
    obtain ⟨rfl, ht⟩ := getBase_ok e1
    obtain ⟨u, s7, e1, eb⟩ := M.bind_ok.1 ea
    clear ea
    obtain ⟨rfl, hu⟩ := getBase_ok e1
    have hany : u.shape = some .any → r = a → s' = s7 → T (fun _ => False) s2 s' ∧ (r = a ∨ (r = b ∧ ∃ c, s2.base b = some c ∧ c.visited = true)) := fun hs hra hss => by
      subst hss
      refine ⟨⟨fun x b' hb => ?_, t5.slices, t5.dts⟩, .inl hra⟩
      obtain ⟨y, hy, ry⟩ := t5.base x b' hb
      refine ⟨y, hy, ry.own, ry.descr, ry.inherits, ry.alias, ry.link, ry.unwrapped, ry.tag, fun k => ?_⟩
      rcases ry.visited k with k | k | rfl
      · exact .inl k
      · exact .inr (.inl k)
      · rw [hu] at hb; cases hb
        exact .inr (.inl (by rw [hs]; rfl))
    rcases hq : u.shape with _ | q
    · rw [hq] at eb
      rcases hr' : t.shape with _ | w
      · rw [hr'] at eb; cases eb
      · rw [hr'] at eb
        cases w <;> first | (cases eb; done) | exact absurd (by rw [hr']; rfl) (hp5 a t ht)
    by_cases hqa : q = .any
    · subst hqa
      rw [hq] at eb
      cases eb
      exact hany hq rfl rfl
    rcases hr' : t.shape with _ | w
    · rw [hq, hr'] at eb
      cases q <;> first | (cases eb; done) | exact absurd rfl hqa | exact absurd (by rw [hq]; rfl) (hp5 b u hu)
    rw [Stops.dispatch_eq hu ht hq hr' hqa (fun l e h => absurd (by rw [hq, h]; rfl) (hp5 b u hu)) (fun l e h => absurd (by rw [hr', h]; rfl) (hp5 a t ht))] at e
    clear eb
    obtain ⟨_, s8, e8, ea⟩ := M.bind_ok.1 e
    clear e
    obtain ⟨_, s9, e9, e⟩ := M.bind_ok.1 ea
    clear ea
    cases e
    have t8 : T (· = b) s2 s8 := t5.trans (inheritShape_keeps hr hp5 ht hr' _ _ e8)
    cases e9
    refine ⟨⟨fun x b' hb => ?_, t8.slices, t8.dts⟩, .inl rfl⟩
    obtain ⟨y, hy, k⟩ := modify_back hb
    obtain ⟨z, hz, rz⟩ := t8.base x y hy
    refine ⟨z, hz, ?_⟩
    rcases k with ⟨hne, rfl⟩ | ⟨rfl, rfl⟩
    · exact ⟨rz.own, rz.descr, rz.inherits, rz.alias, rz.link, rz.unwrapped, rz.tag, fun k => (rz.visited k).imp id (Or.imp id fun e => hne e.symm)⟩
    · exact ⟨rz.own, rz.descr, rz.inherits, rz.alias, rz.link, rz.unwrapped, rz.tag, fun k => by cases k⟩

end

end GoRaml.Climb
