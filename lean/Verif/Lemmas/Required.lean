import Verif.Lemmas.Grown

/-! Properties of a parent object are present in the child after `Inherit`, and `Inherit` between objects fails only for
the stated reasons. -/

namespace GoRaml

open Spec

theorem OMap.mem_of_get {α : Type} {m : OMap α} {k : String} {v : α} (h : OMap.get m k = some v) : (k, v) ∈ m := by
  induction m with
  | nil => simp [OMap.get] at h
  | cons p m ih =>
    simp only [OMap.get] at h
    split at h
    · rename_i hk; simp at h; subst hk; subst h; simp
    · exact List.mem_cons_of_mem _ (ih h)

theorem M.bind_err {σ α β : Type} {m : M σ α} {f : α → M σ β} {s s'' : σ} {e : String} :
    M.bind m f s = (.err e, s'') ↔ m s = (.err e, s'') ∨ ∃ a s', m s = (.ok a, s') ∧ f a s' = (.err e, s'') := by
  unfold M.bind
  cases hm : m s with
  | mk o s' => cases o <;> simp

theorem Cosmetic.grown {h h' : St} (c : Cosmetic h h') : Grown h h' := by
  refine ⟨?_, fun i ps h => ⟨[], by simpa [c.pmaps] using h⟩, fun i ps h => ⟨[], by simpa [c.ppmaps] using h⟩,
    fun x f h => .inl ⟨f, by rw [c.shapeAt, h], fun _ h => h, fun _ h => h⟩, fun x l e h => ⟨l, e, by rw [c.shapeAt, h]⟩⟩
  by_contra hc
  have hlt : h'.bases.length < h.bases.length := not_le.1 hc
  have := c.bases h'.bases.length
  simp [St.base, List.getElem?_eq_getElem hlt] at this

theorem Spec.Grown.declares {h h' : St} (g : Grown h h') {i : Nat} {k : String} {p : Property}
    (hd : Declares (h.props (some i)) k p) : Declares (h'.props (some i)) k p := by
  cases hi : h.pmaps[i]? with
  | none => simp [St.props, hi, Declares] at hd
  | some ps =>
    obtain ⟨more, hm⟩ := g.props i ps hi
    simp only [St.props, hi, hm, Option.getD_some] at hd ⊢
    exact hd.append_left

theorem Spec.Declares.unique {ps : OMap Property} {k : String} {p q : Property} (h1 : Declares ps k p)
    (h2 : Declares ps k q) : p = q := by
  have h1 := (OMap.get_some_iff _ _ _).2 h1
  have h2 := (OMap.get_some_iff _ _ _).2 h2
  rw [h1] at h2; simpa using h2

/-- The skeleton of `Inherit` when neither side is a union and the source is not any, for every outcome. -/
theorem inherit_homog_run {a b : Addr} {h : St} {t s : Shape} (ha : h.shapeAt a = some t)
    (hb : h.shapeAt b = some s) (hv : visitedAt h b = some false) (ht2 : ∀ l e, t ≠ .union l e) (hs1 : s ≠ .any)
    (hs2 : ∀ l e, s ≠ .union l e) (n : Nat) :
    ∃ h1, Cosmetic h h1 ∧ (∀ x, visitedAt h1 x = if x = b then some true else visitedAt h x) ∧
      inherit (n + 1) a b h = (M.bind (inheritShape (inherit n) a b t s) fun _ =>
        M.bind (Heap.updBase b fun x => { x with visited := false }) fun _ => M.ret a) h1 := by
  obtain ⟨ba, hba, hba'⟩ := base_of_shape ha
  obtain ⟨bb, hbb, hbb'⟩ := base_of_shape hb
  obtain ⟨h1, c, hvis, hrun⟩ := inherit_prelude hba hbb (by simpa [visitedAt, hbb] using hv) n
  refine ⟨h1, c, hvis, ?_⟩
  have hda : h1.shapeAt a = some t := by rw [c.shapeAt, ha]
  have hdb : h1.shapeAt b = some s := by rw [c.shapeAt, hb]
  obtain ⟨b1, hb1, hb1'⟩ := base_of_shape hda
  obtain ⟨b2, hb2, hb2'⟩ := base_of_shape hdb
  rw [hrun]
  unfold inheritDispatch
  rw [M.bind_of_ok (show Heap.getBase a h1 = (.ok b1, h1) by simp [Heap.getBase, hb1]),
    M.bind_of_ok (show Heap.getBase b h1 = (.ok b2, h1) by simp [Heap.getBase, hb2])]
  rw [hb1', hb2']
  cases t <;> cases s <;> first | rfl | exact absurd rfl hs1 | exact absurd rfl (hs2 _ _) | exact absurd rfl (ht2 _ _)

theorem Keeps.of_run {α : Type} {m : M St α} {h h' : St} {o : Out α} (k : Keeps Grown m) (hrun : m h = (o, h')) :
    Grown h h' := by have := k h; rw [hrun] at this; exact this

section
variable {rec : Addr → Addr → M St Addr} (hr : ∀ a b, Keeps Grown (rec a b))
include hr

theorem propsLoop_ok {i : Nat} : ∀ {l : OMap Property} {h h' : St}, (∃ ps, h.pmaps[i]? = some ps) →
    M.forEach (inheritProp rec i) l h = (.ok (), h') → ∀ kp ∈ l, ∃ tp, Declares (h'.props (some i)) kp.1 tp ∧
      (kp.2.required = true → tp.required = true)
  | [], _, _, _, _ => by simp
  | x :: xs, h, h', ⟨ps, hps⟩, hrun => by
    simp only [M.forEach] at hrun
    obtain ⟨_, h1, hr1, hr2⟩ := M.bind_ok.1 hrun
    have g1 : Grown h h1 := Keeps.of_run (grown_inheritProp hr i x) hr1
    have g2 : Grown h1 h' := Keeps.of_run (Keeps.forEach Grown.refl grown_tr (grown_inheritProp hr i) xs) hr2
    intro kp hkp
    rcases List.mem_cons.1 hkp with rfl | hkp
    · unfold inheritProp at hr1
      rw [M.get_bind] at hr1
      cases hg : OMap.get (h.props (some i)) kp.1 with
      | some tp =>
        simp only [hg] at hr1
        refine ⟨tp, g2.declares (g1.declares ((OMap.get_some_iff _ _ _).1 hg)), fun hreq => ?_⟩
        cases ht : tp.required with
        | true => rfl
        | false => simp [hreq, ht, M.err] at hr1
      | none =>
        simp only [hg, Heap.setProp, Prod.mk.injEq, true_and] at hr1
        refine ⟨kp.2, g2.declares ?_, fun h => h⟩
        subst hr1
        have hg' := hg
        simp only [St.props, hps, Option.getD_some] at hg
        simp only [St.props, List.getElem?_modify, hps, Option.map_eq_map, Option.map_some, if_true, Option.getD_some,
          OMap.set_append _ _ _ hg]
        exact ⟨ps, [], rfl, (OMap.get_none_iff _ _).1 hg⟩
    · obtain ⟨m, hm⟩ := g1.props i ps hps
      exact propsLoop_ok ⟨_, hm⟩ hr2 kp hkp

theorem propsLoop_err {i : Nat} {e : String} : ∀ {l : OMap Property} {h h' : St},
    M.forEach (inheritProp rec i) l h = (.err e, h') → ∃ kp ∈ l, ∃ tp h1, Grown h h1 ∧
      Declares (h1.props (some i)) kp.1 tp ∧
      ((kp.2.required = true ∧ tp.required = false) ∨ ∃ h2, rec tp.base kp.2.base h1 = (.err e, h2))
  | [], h, h', hrun => by simp [M.forEach, M.ret] at hrun
  | x :: xs, h, h', hrun => by
    simp only [M.forEach] at hrun
    rcases M.bind_err.1 hrun with hr1 | ⟨_, h1, hr1, hr2⟩
    · refine ⟨x, by simp, ?_⟩
      unfold inheritProp at hr1
      rw [M.get_bind] at hr1
      cases hg : OMap.get (h.props (some i)) x.1 with
      | some tp =>
        simp only [hg] at hr1
        refine ⟨tp, h, Grown.refl h, (OMap.get_some_iff _ _ _).1 hg, ?_⟩
        by_cases hq : (x.2.required && !tp.required) = true
        · left; simpa using hq
        · right
          rw [if_neg hq] at hr1
          rcases M.bind_err.1 hr1 with h3 | ⟨_, _, _, h4⟩
          · exact ⟨_, h3⟩
          · simp [M.ret] at h4
      | none => simp [hg, Heap.setProp] at hr1
    · have g1 : Grown h h1 := Keeps.of_run (grown_inheritProp hr i x) hr1
      obtain ⟨kp, hkp, tp, h3, g3, rest⟩ := propsLoop_err hr2
      exact ⟨kp, List.mem_cons_of_mem _ hkp, tp, h3, g1.trans g3, rest⟩

theorem patsLoop_err {i : Nat} {e : String} : ∀ {l : OMap PatternProperty} {h h' : St},
    M.forEach (inheritPatProp rec i) l h = (.err e, h') → ∃ kp ∈ l, ∃ tp h1, Grown h h1 ∧
      (kp.1, tp) ∈ h1.patProps (some i) ∧ ∃ h2, rec tp.base kp.2.base h1 = (.err e, h2)
  | [], h, h', hrun => by simp [M.forEach, M.ret] at hrun
  | x :: xs, h, h', hrun => by
    simp only [M.forEach] at hrun
    rcases M.bind_err.1 hrun with hr1 | ⟨_, h1, hr1, hr2⟩
    · refine ⟨x, by simp, ?_⟩
      unfold inheritPatProp at hr1
      rw [M.get_bind] at hr1
      cases hg : OMap.get (h.patProps (some i)) x.1 with
      | some tp =>
        simp only [hg] at hr1
        refine ⟨tp, h, Grown.refl h, OMap.mem_of_get hg, ?_⟩
        rcases M.bind_err.1 hr1 with h3 | ⟨_, _, _, h4⟩
        · exact ⟨_, h3⟩
        · simp [M.ret] at h4
      | none => simp [hg, Heap.setPatProp] at hr1
    · have g1 : Grown h h1 := Keeps.of_run (grown_inheritPatProp hr i x) hr1
      obtain ⟨kp, hkp, tp, h3, g3, rest⟩ := patsLoop_err hr2
      exact ⟨kp, List.mem_cons_of_mem _ hkp, tp, h3, g1.trans g3, rest⟩

/-- Success of the object part. -/
theorem object_required {h h' : St} {a b : Addr} {f g : ObjectF} (ha : h.shapeAt a = some (.object f))
    (hb : h.shapeAt b = some (.object g)) (hptr : ∀ i, f.properties = some i → ∃ ps, h.pmaps[i]? = some ps)
    (hrun : inheritObject rec a b h = (.ok (), h')) :
    (∃ r, f.inheritOwn g = .ok r) ∧
    (∀ k sp tp, Declares (h.props g.properties) k sp → Declares (h.props f.properties) k tp → sp.required = true →
      tp.required = true) ∧
    ∀ f', h'.shapeAt a = some (.object f') → ∀ k sp, Declares (h.props g.properties) k sp →
      ∃ tp, Declares (h'.props f'.properties) k tp ∧ (sp.required = true → tp.required = true) := by
  unfold inheritObject at hrun
  rw [M.get_bind, objectAt_eq ha, objectAt_eq hb] at hrun
  obtain ⟨r, h0, hr0, hrun1⟩ := M.bind_ok.1 hrun
  obtain ⟨hown, rfl⟩ := M.lift_ok.1 hr0
  obtain ⟨hp, hpp⟩ := inheritOwn_ptrs hown
  obtain ⟨_, h1, hr1, hrun2⟩ := M.bind_ok.1 hrun1
  rw [setObject_eq ha] at hr1
  have put := setShape_put ha hr1
  obtain ⟨_, h2, hr2, hr3⟩ := M.bind_ok.1 hrun2
  have hgb : (objectAt h1 b).properties = g.properties := by
    by_cases hab : b = a
    · subst hab
      rw [objectAt_eq put.shape, hp]
      rw [ha] at hb; simp at hb; rw [hb]
    · rw [objectAt_eq (show h1.shapeAt b = some (.object g) by rw [put.other hab, hb])]
  have hpm : ∀ q, h1.props q = h.props q := by intro q; cases q <;> simp [St.props, put.pmaps]
  have g12 : Grown h1 h2 := Keeps.of_run (grown_inheritProperties hr a b) hr2
  have g2 : Grown h2 h' := Keeps.of_run (grown_inheritPatternProperties hr a b) hr3
  unfold inheritProperties at hr2
  rw [M.get_bind, objectAt_eq put.shape, hp, hgb] at hr2
  refine ⟨⟨r, hown⟩, fun k sp tp hsp htp hreq => ?_, fun f' hf' k sp hsp => ?_⟩
  · cases hf : f.properties with
    | none => rw [hf] at htp; simp [St.props, Declares] at htp
    | some i =>
      cases hg : g.properties with
      | none => rw [hg] at hsp; simp [St.props, Declares] at hsp
      | some j =>
        simp only [hf, hg] at hr2
        rw [hpm] at hr2
        rw [hg] at hsp
        rw [hf] at htp
        obtain ⟨ps, hps⟩ := hptr i hf
        obtain ⟨tp', htp', hreq'⟩ := propsLoop_ok hr ⟨ps, by rw [put.pmaps, hps]⟩ hr2 (k, sp) hsp.mem
        rw [← hpm] at htp
        rw [(g12.declares htp).unique htp']
        exact hreq' hreq
  cases hf : f.properties with
  | none =>
    simp only [hf] at hr2
    rw [setObject_eq put.shape] at hr2
    have put2 := setShape_put put.shape hr2
    cases hg : g.properties with
    | none => rw [hg] at hsp; simp [St.props, Declares] at hsp
    | some j =>
      rcases g2.objects a _ put2.shape with ⟨f'', hf'', hk, _⟩ | ⟨l, e, hu⟩
      · rw [hf'] at hf''; simp at hf''; subst hf''
        rw [hk j hg]
        refine ⟨sp, g2.declares ?_, fun h => h⟩
        rw [hg] at hsp
        simp only [St.props] at hsp ⊢
        rw [put2.pmaps, put.pmaps]; exact hsp
      · rw [hf'] at hu; simp at hu
  | some i =>
    cases hg : g.properties with
    | none => rw [hg] at hsp; simp [St.props, Declares] at hsp
    | some j =>
      simp only [hf, hg] at hr2
      rw [hpm] at hr2
      rw [hg] at hsp
      obtain ⟨ps, hps⟩ := hptr i hf
      obtain ⟨tp, htp, hreq⟩ := propsLoop_ok hr ⟨ps, by rw [put.pmaps, hps]⟩ hr2 (k, sp) hsp.mem
      rcases (g12.trans g2).objects a _ put.shape with ⟨f'', hf'', hk, _⟩ | ⟨l, e, hu⟩
      · rw [hf'] at hf''; simp at hf''; subst hf''
        rw [hk i (by rw [hp, hf])]
        exact ⟨tp, g2.declares htp, hreq⟩
      · rw [hf'] at hu; simp at hu

/-- Failure of the object part. -/
theorem object_error {h h' : St} {a b : Addr} {f g : ObjectF} {e : String} (ha : h.shapeAt a = some (.object f))
    (hb : h.shapeAt b = some (.object g)) (hrun : inheritObject rec a b h = (.err e, h')) :
    f.inheritOwn g = .err e ∨
    (∃ i k sp tp h1, f.properties = some i ∧ (k, sp) ∈ h.props g.properties ∧ Grown h h1 ∧
      Declares (h1.props (some i)) k tp ∧
      ((sp.required = true ∧ tp.required = false) ∨ ∃ h2, rec tp.base sp.base h1 = (.err e, h2))) ∨
    (∃ i k sp tp h1 h2, (k, sp) ∈ h1.patProps (objectAt h1 b).patternProperties ∧ Grown h h1 ∧ Grown h1 h2 ∧
      (objectAt h1 a).patternProperties = some i ∧
      (k, tp) ∈ h2.patProps (some i) ∧ ∃ h3, rec tp.base sp.base h2 = (.err e, h3)) := by
  unfold inheritObject at hrun
  rw [M.get_bind, objectAt_eq ha, objectAt_eq hb] at hrun
  rcases M.bind_err.1 hrun with hr0 | ⟨r, h0, hr0, hrun1⟩
  · simp only [M.lift, Prod.mk.injEq] at hr0; exact .inl hr0.1
  right
  obtain ⟨hown, rfl⟩ := M.lift_ok.1 hr0
  obtain ⟨hp, hpp⟩ := inheritOwn_ptrs hown
  rcases M.bind_err.1 hrun1 with hr1 | ⟨_, h1, hr1, hrun2⟩
  · simp [setObject, Heap.updBase] at hr1
  have g1 : Grown h h1 := by
    have := grown_setObject (h := h) (a := a) (f := r) (by rw [objectAt_eq ha, hp]; exact fun _ h => h)
      (by rw [objectAt_eq ha, hpp]; exact fun _ h => h)
    rw [hr1] at this; exact this
  rw [setObject_eq ha] at hr1
  have put := setShape_put ha hr1
  have hgb : (objectAt h1 b).properties = g.properties := by
    by_cases hab : b = a
    · subst hab
      rw [objectAt_eq put.shape, hp]
      rw [ha] at hb; simp at hb; rw [hb]
    · rw [objectAt_eq (show h1.shapeAt b = some (.object g) by rw [put.other hab, hb])]
  have hpm : ∀ q, h1.props q = h.props q := by intro q; cases q <;> simp [St.props, put.pmaps]
  rcases M.bind_err.1 hrun2 with hr2 | ⟨_, h2, hr2, hr3⟩
  · left
    unfold inheritProperties at hr2
    rw [M.get_bind, objectAt_eq put.shape, hp, hgb] at hr2
    cases hf : f.properties with
    | none => simp [hf, setObject, Heap.updBase] at hr2
    | some i =>
      cases hg : g.properties with
      | none => simp [hf, hg, M.ret] at hr2
      | some j =>
        simp only [hf, hg] at hr2
        rw [hpm] at hr2
        obtain ⟨kp, hkp, tp, h3, g3, hd, rest⟩ := propsLoop_err hr hr2
        exact ⟨i, kp.1, kp.2, tp, h3, rfl, hkp, g1.trans g3, hd, rest⟩
  · right
    have g12 : Grown h1 h2 := Keeps.of_run (grown_inheritProperties hr a b) hr2
    unfold inheritPatternProperties at hr3
    rw [M.get_bind] at hr3
    cases hf : (objectAt h2 a).patternProperties with
    | none => simp [hf, setObject, Heap.updBase] at hr3
    | some i =>
      cases hg : (objectAt h2 b).patternProperties with
      | none => simp [hf, hg, M.ret] at hr3
      | some j =>
        simp only [hf, hg] at hr3
        obtain ⟨kp, hkp, tp, h3, g3, hd, h4, h5⟩ := patsLoop_err hr hr3
        exact ⟨i, kp.1, kp.2, tp, h2, h3, by rw [hg]; exact hkp, g1.trans g12, g3, hf, hd, h4, h5⟩

end

end GoRaml
