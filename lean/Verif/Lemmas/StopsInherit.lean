import Verif.Lemmas.Stops

/-!
# Inheritance without unions stops (C79)
-/

namespace GoRaml.Stops

open GoRaml

section
variable {D : Zone} {s s0 : St}

/-- Nothing but errors and panics. -/
theorem inheritLower_stops {α : Type} {lt : α → α → Bool} {x y : Option α} : inheritLower lt x y ≠ .diverge := by
  unfold inheritLower; repeat' split
  all_goals simp

theorem inheritUpper_stops {α : Type} {lt : α → α → Bool} {x y : Option α} : inheritUpper lt x y ≠ .diverge := by
  unfold inheritUpper; repeat' split
  all_goals simp

theorem bind_stops {α β : Type} {o : Out α} {f : α → Out β} (h : o ≠ .diverge) (k : ∀ x, f x ≠ .diverge) : o.bind f ≠ .diverge := by
  cases o with
  | ok x => exact k x
  | err e => simp [Out.bind]
  | panic e => simp [Out.bind]
  | diverge => exact absurd rfl h

theorem goEq_stops {x y : GoVal} : GoVal.goEq x y ≠ .diverge := by
  unfold GoVal.goEq; repeat' split
  all_goals simp

theorem enumHas_stops {x : GoVal} : ∀ (l : List GoVal), enumHas x l ≠ .diverge
  | [] => by simp [enumHas]
  | e :: l => bind_stops goEq_stops fun b => by
    cases b
    · exact enumHas_stops l
    · simp

theorem isCompatibleEnum_stops {l : List GoVal} : ∀ (l' : List GoVal), isCompatibleEnum l l' ≠ .diverge
  | [] => by simp [isCompatibleEnum]
  | e :: l' => bind_stops (enumHas_stops l) fun b => by
    cases b
    · simp
    · exact isCompatibleEnum_stops l'

theorem inheritEnum_stops {x y : Option (List GoVal)} : inheritEnum x y ≠ .diverge := by
  unfold inheritEnum
  split
  · simp
  · simp
  · exact bind_stops (isCompatibleEnum_stops _) fun b => by cases b <;> simp

theorem inheritFormat_stops {x y : Option String} : inheritFormat x y ≠ .diverge := by
  unfold inheritFormat; repeat' split
  all_goals simp

theorem inheritIntegerFormat_stops {x y : Option String} : inheritIntegerFormat x y ≠ .diverge := by
  unfold inheritIntegerFormat; repeat' split
  all_goals simp

theorem inheritBounds_stops {f g : ArrayF} : f.inheritBounds g ≠ .diverge := by
  unfold ArrayF.inheritBounds
  refine bind_stops inheritLower_stops fun _ => bind_stops inheritUpper_stops fun _ => ?_
  repeat' split
  all_goals simp

theorem inheritOwn_stops {f g : ObjectF} : f.inheritOwn g ≠ .diverge :=
  bind_stops inheritLower_stops fun _ => bind_stops inheritUpper_stops fun _ => by simp

theorem leafInherit_stops {t u : Shape} : leafInherit t u ≠ .diverge := by
  unfold leafInherit
  split
  case h_1 =>
    exact bind_stops (bind_stops inheritLower_stops fun _ => bind_stops inheritUpper_stops fun _ => bind_stops inheritEnum_stops fun _ => by simp) fun _ => by simp
  case h_2 =>
    exact bind_stops (bind_stops inheritLower_stops fun _ => bind_stops inheritUpper_stops fun _ => bind_stops inheritEnum_stops fun _ =>
      bind_stops inheritIntegerFormat_stops fun _ => by simp) fun _ => by simp
  case h_3 =>
    exact bind_stops (bind_stops inheritLower_stops fun _ => bind_stops inheritUpper_stops fun _ => bind_stops inheritEnum_stops fun _ =>
      bind_stops inheritFormat_stops fun _ => by simp) fun _ => by simp
  case h_4 =>
    exact bind_stops (bind_stops inheritLower_stops fun _ => bind_stops inheritUpper_stops fun _ => bind_stops inheritEnum_stops fun _ => by simp) fun _ => by simp
  case h_5 => exact bind_stops inheritEnum_stops fun _ => by simp
  case h_6 => exact bind_stops inheritFormat_stops fun _ => by simp
  all_goals first | (split <;> simp; done) | simp

/-- The result of inheriting scalars is no union and no object. -/
theorem leafInherit_leaf {t u q : Shape} (h : leafInherit t u = .ok q) : (∀ l e, q ≠ .union l e) ∧ ∀ f, q ≠ .object f := by
  have key : ∀ {α : Type} {o : Out α} {c : α → Shape}, (∀ x, (∀ l e, c x ≠ .union l e) ∧ ∀ f, c x ≠ .object f) → (o.bind fun r => .ok (c r)) = .ok q →
      (∀ l e, q ≠ .union l e) ∧ ∀ f, q ≠ .object f := by
    intro α o c hc ho
    cases o with
    | ok x => simp only [Out.bind, Out.ok.injEq] at ho; subst ho; exact hc x
    | err e => cases ho
    | panic e => cases ho
    | diverge => cases ho
  unfold leafInherit at h
  split at h
  case h_1 => exact key (fun x => ⟨by simp, by simp⟩) h
  case h_2 => exact key (fun x => ⟨by simp, by simp⟩) h
  case h_3 => exact key (fun x => ⟨by simp, by simp⟩) h
  case h_4 => exact key (fun x => ⟨by simp, by simp⟩) h
  case h_5 => exact key (fun x => ⟨by simp, by simp⟩) h
  case h_6 => exact key (fun x => ⟨by simp, by simp⟩) h
  all_goals first
    | (cases h; done)
    | (cases h; exact ⟨by simp, by simp⟩)
    | (split at h
       · cases h
       · cases h; exact ⟨by simp, by simp⟩)

/-! ## The steps -/

theorem setArray_runs {a : Addr} {f : ArrayF} (i : Inv D s) : Runs D s (setArray a f) s := .upd i fun b hb => by
  cases hs : b.shape with
  | none => exact i.fit hb (by simp [hs]) (by simp [hs]) (by simp [hs]) (by simp [hs])
  | some q =>
    cases q with
    | array g => exact ⟨fun u e => by simp [hs], fun j => by simpa [hs] using i.defs a b j hb, fun g' j e => by simp [hs] at e, by simp [hs], by simp [hs]⟩
    | _ => exact i.fit hb (by simp [hs]) (by simp [hs]) (by simp [hs]) (by simp [hs])

/-- The properties of an object are not in `D.empty`. -/
def Prop' (D : Zone) (f : ObjectF) : Prop := ∀ i, f.properties = some i → ¬ D.empty i

theorem setObject_runs {a : Addr} {f : ObjectF} (i : Inv D s) (hf : Prop' D f) : Runs D s (setObject a f) s := .upd i fun b hb => by
  cases hs : b.shape with
  | none => exact i.fit hb (by simp [hs]) (by simp [hs]) (by simp [hs]) (by simp [hs])
  | some q =>
    cases q with
    | object g =>
      exact ⟨fun u e => by simp [hs], fun j => by simpa [hs] using i.defs a b j hb,
        fun g' j e h => by
          simp only [hs, Option.some.injEq, Shape.object.injEq] at e
          subst e; exact hf j h, by simp [hs], by simp [hs]⟩
    | _ => exact i.fit hb (by simp [hs]) (by simp [hs]) (by simp [hs]) (by simp [hs])

theorem objectAt_prop (i : Inv D s) (a : Addr) : Prop' D (objectAt s a) := by
  unfold objectAt
  split
  · rename_i f hf
    obtain ⟨b, hb, hs⟩ := Option.bind_eq_some_iff.1 hf
    exact fun j hj => i.props a b f j hb hs hj
  · intro j hj; cases hj

theorem get_ok {s' x : St} (h : (M.get : M St St) s = (.ok x, s')) : s' = s ∧ x = s := by cases h; exact ⟨rfl, rfl⟩

theorem Runs.get (i : Inv D s) : Runs D s (M.get : M St St) s := ⟨by simp [M.get], i, .refl s⟩

/-- A call from a later state. -/
def RecRuns (D : Zone) (rec : Addr → Addr → M St Addr) (s : St) : Prop := ∀ a b s', Inv D s' → Step s s' → Runs D s' (rec a b) s'

theorem RecRuns.later {rec : Addr → Addr → M St Addr} {s' : St} (h : RecRuns D rec s) (p : Step s s') : RecRuns D rec s' := fun a b s'' i q => h a b s'' i (p.trans q)

variable {rec : Addr → Addr → M St Addr}

theorem inheritArray_runs (hrec : RecRuns D rec s) {a b : Addr} (i : Inv D s) : Runs D s (inheritArray rec a b) s := by
  unfold inheritArray
  refine .bind (.get i) (.refl s) fun x s1 e _ _ => ?_
  obtain ⟨rfl, rfl⟩ := get_ok e
  refine .bind ?_ (.refl _) fun _ s2 _ i2 p2 => .bind (.get i2) p2 fun x s3 e _ _ => ?_
  · split
    · exact setArray_runs i
    · exact .bind (hrec _ _ _ i (.refl _)) (.refl _) fun _ s2 _ i2 p2 => .ret i2 p2
    · exact .ret i (.refl _)
  · obtain ⟨rfl, rfl⟩ := get_ok e
    exact .bind (.lift inheritBounds_stops i2 (.refl _)) p2 fun f s4 e _ p4 => by
      obtain ⟨_, rfl⟩ := Prod.mk.inj e
      exact (setArray_runs i2).later p2

theorem setProp_runs {j : Nat} {k : String} {p : Property} (i : Inv D s) (hj : ¬ D.empty j) : Runs D s (Heap.setProp j k p) s :=
  .tables i rfl rfl fun j' hj' => by
    have hne : j ≠ j' := fun e => hj (e ▸ hj')
    simp only [St.props, List.getElem?_modify, if_neg hne]
    simp

theorem inheritProp_runs (hrec : RecRuns D rec s) {j : Nat} {kp : String × Property} (hj : ¬ D.empty j) (i : Inv D s) : Runs D s (inheritProp rec j kp) s := by
  unfold inheritProp
  refine .bind (.get i) (.refl s) fun x s1 e _ _ => ?_
  obtain ⟨rfl, rfl⟩ := get_ok e
  split
  · split
    · exact .err i (.refl _)
    · exact .bind (hrec _ _ _ i (.refl _)) (.refl _) fun _ s2 _ i2 p2 => .ret i2 p2
  · exact setProp_runs i hj

theorem inheritProperties_runs (hrec : RecRuns D rec s) {a b : Addr} (i : Inv D s) : Runs D s (inheritProperties rec a b) s := by
  unfold inheritProperties
  refine .bind (.get i) (.refl s) fun x s1 e _ _ => ?_
  obtain ⟨rfl, rfl⟩ := get_ok e
  split
  · rename_i h1
    exact setObject_runs i fun j hj => objectAt_prop i b j hj
  · exact .ret i (.refl _)
  · rename_i j _ h1 _
    exact .forEach _ i fun kp _ s' i' p => inheritProp_runs (hrec.later p) (objectAt_prop i a j h1) i'

theorem inheritPatProp_runs (hrec : RecRuns D rec s) {j : Nat} {kp : String × PatternProperty} (i : Inv D s) : Runs D s (inheritPatProp rec j kp) s := by
  unfold inheritPatProp
  refine .bind (.get i) (.refl s) fun x s1 e _ _ => ?_
  obtain ⟨rfl, rfl⟩ := get_ok e
  split
  · exact .bind (hrec _ _ _ i (.refl _)) (.refl _) fun _ s2 _ i2 p2 => .ret i2 p2
  · exact .tables i rfl rfl fun _ _ => rfl

theorem inheritPatternProperties_runs (hrec : RecRuns D rec s) {a b : Addr} (i : Inv D s) : Runs D s (inheritPatternProperties rec a b) s := by
  unfold inheritPatternProperties
  refine .bind (.get i) (.refl s) fun x s1 e _ _ => ?_
  obtain ⟨rfl, rfl⟩ := get_ok e
  split
  · exact setObject_runs i fun j hj => objectAt_prop i a j hj
  · exact .ret i (.refl _)
  · exact .forEach _ i fun kp _ s' i' p => inheritPatProp_runs (hrec.later p) i'

theorem inheritObject_runs (hrec : RecRuns D rec s) {a b : Addr} (i : Inv D s) : Runs D s (inheritObject rec a b) s := by
  unfold inheritObject
  refine .bind (.get i) (.refl s) fun x s1 e _ _ => ?_
  obtain ⟨rfl, rfl⟩ := get_ok e
  refine .bind (.lift inheritOwn_stops i (.refl _)) (.refl _) fun f s2 e _ _ => ?_
  obtain ⟨e, rfl⟩ := Prod.mk.inj e
  have hf : Prop' D f := by
    have hp : f.properties = (objectAt x a).properties := by
      unfold ObjectF.inheritOwn at e
      cases h1 : inheritLower natLt (objectAt x a).minProperties (objectAt x b).minProperties with
      | ok y =>
        rw [h1] at e
        cases h2 : inheritUpper natLt (objectAt x a).maxProperties (objectAt x b).maxProperties with
        | ok z =>
          rw [h2] at e
          cases e; rfl
        | _ => rw [h2] at e; cases e
      | _ => rw [h1] at e; cases e
    intro j hj
    exact objectAt_prop i a j (hp ▸ hj)
  refine .bind (setObject_runs i hf) (.refl _) fun _ s3 _ i3 p3 => .bind (inheritProperties_runs (hrec.later p3) i3) p3 fun _ s4 _ i4 p4 =>
    (inheritPatternProperties_runs (hrec.later (p3.trans p4)) i4).later (p3.trans p4)

theorem setShape_runs {a : Addr} {q : Shape} (i : Inv D s) (h1 : ∀ l e, q ≠ .union l e) (h2 : ∀ f j, q = .object f → f.properties = some j → ¬ D.empty j) : Runs D s (setShape a q) s :=
  .upd i fun b hb => ⟨fun u e h => h1 u e (Option.some.inj h), fun j => i.defs a b j hb, fun f j h => h2 f j (Option.some.inj h), id, id⟩

theorem inheritShape_runs (hrec : RecRuns D rec s) {a b : Addr} {t u : Shape} (ht : ∀ l e, t ≠ .union l e) (i : Inv D s) : Runs D s (inheritShape rec a b t u) s := by
  unfold inheritShape
  split
  · exact inheritArray_runs hrec i
  · exact inheritObject_runs hrec i
  · refine .bind (.getShape i) (.refl _) fun q s1 e _ _ => ?_
    obtain ⟨rfl, _⟩ := getShape_ok e
    split
    · exact inheritObject_runs hrec i
    · exact .err i (.refl _)
  · exact absurd rfl (ht _ _)
  · exact .err i (.refl _)
  · exact .err i (.refl _)
  · exact .err i (.refl _)
  · refine .bind (.lift leafInherit_stops i (.refl _)) (.refl _) fun q s1 e _ _ => ?_
    obtain ⟨e', rfl⟩ := Prod.mk.inj e
    obtain ⟨k1, k2⟩ := leafInherit_leaf e'
    exact setShape_runs i k1 fun f j hf => absurd hf (k2 f)

theorem inheritFacet_runs {j : Nat} {kv : String × GoVal} (i : Inv D s) : Runs D s (inheritFacet j kv) s := by
  cases hg : OMap.get (s.facetMap (some j)) kv.1 with
  | some _ => exact Runs.tables (x := ()) (s' := s) i (by simp only [inheritFacet, hg]) rfl fun _ _ => rfl
  | none =>
    exact Runs.tables (x := ()) (s' := (Heap.setFacet j kv.1 kv.2 s).2) i (by simp only [inheritFacet, hg]; rfl) rfl fun _ _ => rfl

theorem inheritFacets_runs {a b : Addr} (i : Inv D s) : Runs D s (inheritFacets a b) s := by
  unfold inheritFacets
  refine .bind (.getBase i) (.refl _) fun x s1 e _ _ => ?_
  obtain ⟨rfl, _⟩ := getBase_ok e
  refine .bind (.getBase i) (.refl _) fun y s2 e _ _ => ?_
  obtain ⟨rfl, _⟩ := getBase_ok e
  split
  · exact .upd i fun b hb => i.fit hb rfl rfl id id
  · exact .ret i (.refl _)
  · exact Runs.forEach (f := inheritFacet _) _ i fun kv _ s' i' p => inheritFacet_runs i'

theorem bind_first {α β : Type} {m : M St α} {f : α → M St β} {x : α} {s s' : St} (h : m s = (.ok x, s')) : M.bind m f s = f x s' := by simp only [M.bind, h]

theorem dispatch_eq {a b : Addr} {t u : Base} {q r : Shape} (hu : s.base b = some u) (ht : s.base a = some t) (hu' : u.shape = some q) (ht' : t.shape = some r) (h1 : q ≠ .any)
    (h2 : ∀ l e, q ≠ .union l e) (h3 : ∀ l e, r ≠ .union l e) :
    inheritDispatch rec a b s = M.bind (inheritShape rec a b r q) (fun _ => M.bind (Heap.updBase b fun x => { x with visited := false }) fun _ => M.ret a) s := by
  have e1 : Heap.getBase a s = (.ok t, s) := by simp [Heap.getBase, ht]
  have e2 : Heap.getBase b s = (.ok u, s) := by simp [Heap.getBase, hu]
  unfold inheritDispatch
  refine (bind_first e1).trans ((bind_first e2).trans ?_)
  rw [hu', ht']
  cases q <;> first | exact absurd rfl h1 | exact absurd rfl (h2 _ _) | (cases r <;> first | rfl | exact absurd rfl (h3 _ _))

theorem dispatch_panics {s0 : St} {a b : Addr} (i : Inv D s) (p : Step s0 s) (h : s.base a = none ∨ s.base b = none) : Runs D s0 (inheritDispatch rec a b) s := by
  unfold inheritDispatch
  refine .bind (.getBase i) p fun t s5 e _ _ => ?_
  obtain ⟨rfl, ht⟩ := getBase_ok e
  refine .bind (.getBase i) p fun u s6 e _ _ => ?_
  obtain ⟨rfl, hu⟩ := getBase_ok e
  rw [ht, hu] at h
  exact absurd h (by simp)

theorem dispatch_any {s0 : St} {a b : Addr} {t u : Base} (i : Inv D s) (p : Step s0 s) (ht : s.base a = some t) (hu : s.base b = some u) (h : u.shape = some .any) :
    Runs D s0 (inheritDispatch rec a b) s := by
  unfold inheritDispatch
  refine .bind (.getBase i) p fun t' s5 e _ _ => ?_
  obtain ⟨rfl, ht'⟩ := getBase_ok e
  refine .bind (.getBase i) p fun u' s6 e _ _ => ?_
  obtain ⟨rfl, hu'⟩ := getBase_ok e
  rw [hu] at hu'; cases hu'
  rw [h]
  exact .ret i p

theorem dispatch_none {s0 : St} {a b : Addr} {t u : Base} (i : Inv D s) (p : Step s0 s) (ht : s.base a = some t) (hu : s.base b = some u) (h : u.shape = none ∨ t.shape = none) :
    Runs D s0 (inheritDispatch rec a b) s := by
  unfold inheritDispatch
  refine .bind (.getBase i) p fun t' s5 e _ _ => ?_
  obtain ⟨rfl, ht'⟩ := getBase_ok e
  refine .bind (.getBase i) p fun u' s6 e _ _ => ?_
  obtain ⟨rfl, hu'⟩ := getBase_ok e
  rw [hu] at hu'; cases hu'
  rw [ht] at ht'; cases ht'
  have hp := i.plain a t
  have hq := i.plain b u
  rcases hq' : u.shape with _ | q <;> rcases hp' : t.shape with _ | r
  · exact .panic i p
  · cases r <;> first | exact .panic i p | exact absurd hp' (hp _ _ ht)
  · cases q <;> first | exact .panic i p | exact .ret i p | exact absurd hq' (hq _ _ hu)
  · rw [hq', hp'] at h; simp at h

/-- Without unions inheritance stops after as many nested calls as there are types. -/
theorem inherit_runs : ∀ (n : Nat) (s : St), Inv D s → unseen s < n → ∀ a b, Runs D s (inherit n a b) s
  | 0, _, _, h, _, _ => absurd h (Nat.not_lt_zero _)
  | n + 1, s, i, h, a, b => by
    unfold inherit
    refine .bind (.getBase i) (.refl _) fun tb s1 e _ _ => ?_
    obtain ⟨rfl, _⟩ := getBase_ok e
    refine .bind (.getBase i) (.refl _) fun src s1' e _ _ => ?_
    obtain ⟨rfl, hsrc⟩ := getBase_ok e
    split
    · exact .ret i (.refl _)
    · rename_i hv
      have hv : src.visited = false := by simpa using hv
      refine .bind (.upd i fun y hy => i.fit hy rfl rfl id fun _ => rfl) (.refl _) fun _ s2 e2 i2 p2 => ?_
      have hb2 : ∃ b2, s2.base b = some b2 ∧ b2.visited = true := by
        cases e2
        refine ⟨{ src with visited := true }, ?_, rfl⟩
        rw [base_modify, hsrc]
        simp
      obtain ⟨b2, hb2, hv2⟩ := hb2
      have hlt := p2.unseen_lt hsrc hb2 hv hv2
      have hrec : RecRuns D (inherit n) s2 := fun a' b' s' i' p => inherit_runs n s' i' (by have := p.unseen; omega) a' b'
      refine .bind (.upd i2 fun y hy => i2.fit hy rfl rfl id id) p2 fun _ s3 _ i3 p3 => .bind (inheritFacets_runs i3) (p2.trans p3) fun _ s4 _ i4 p4 => ?_
      have q4 : Step s1' s4 := p2.trans (p3.trans p4)
      cases ht : s4.base a with
      | none => exact dispatch_panics i4 q4 (.inl ht)
      | some t =>
        cases hu : s4.base b with
        | none => exact dispatch_panics i4 q4 (.inr hu)
        | some u =>
          rcases hu' : u.shape with _ | q
          · exact dispatch_none i4 q4 ht hu (.inl hu')
          by_cases hany : q = .any
          · subst hany
            exact dispatch_any i4 q4 ht hu hu'
          rcases ht' : t.shape with _ | r
          · exact dispatch_none i4 q4 ht hu (.inr ht')
          unfold Runs
          rw [dispatch_eq hu ht hu' ht' hany (fun l e h => i4.plain _ _ l e hu (h ▸ hu')) (fun l e h => i4.plain _ _ l e ht (h ▸ ht'))]
          refine Runs.bind (s0 := s1') (inheritShape_runs (hrec.later (p3.trans p4)) (fun l e he => i4.plain _ _ l e ht (he ▸ ht')) i4) q4 fun _ s7 _ i7 p7 => ?_
          have q7 : Step s1' s7 := q4.trans p7
          refine ⟨by simp [M.bind, Heap.updBase, M.ret], i7.keep fun y hy => ⟨{ y with visited := false }, (i7.plain b y · · hy), (i7.defs b y · hy), (i7.props b y · · hy), id, id⟩,
            by simpa [M.bind, Heap.updBase, M.ret] using q7.len, fun x y y' hy hy' => ?_⟩
          obtain ⟨y1, hy1, ⟨_, rfl⟩ | ⟨rfl, rfl⟩⟩ := modify_back hy'
          · exact q7.flags x y _ hy hy1
          · rw [hsrc] at hy; cases hy
            exact ⟨(q7.flags _ _ _ hsrc hy1).1, fun k => absurd k (by simp [hv])⟩
end

end GoRaml.Stops
