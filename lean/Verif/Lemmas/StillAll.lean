import Verif.Lemmas.StillAgain

/-!
# After `UnwrapShapes` there is nothing left to mark
-/

namespace GoRaml.Still

open GoRaml GoRaml.Spec GoRaml.Load GoRaml.Whole

variable {K : Par}

/-- Marked types: left visited, or with nothing left to mark. -/
def Rest (h0 h' : St) (a : Addr) : Prop := visitedAt h0 a = some true ∨ Calm h' a

theorem Rest.marked {C : Addr → Prop} {h0 h h' : St} (m : Marked C h h') (n : NoMore h h') {a : Addr} (e : Rest h0 h a) : Rest h0 h' a := e.imp id fun f => f.marked m n

theorem NoMore.trans {a b c : St} (h : NoMore a b) (k : NoMore b c) : NoMore a c := fun x hx => h x (k x hx)

theorem loop_mark [K.Rec] {h0 h h' : St} {n : Nat} {a : Addr} {o : Option Addr} (l : Looping K h0 h) (ha : IsBase h0 a) (hr : GoRaml.mark n a h = (.ok o, h')) :
    Looping K h0 h' ∧ Marked (There h0) h h' ∧ NoMore h h' ∧ Rest h0 h' a := by
  have p := Still.mark_ends n h a o h' l.inv hr
  obtain ⟨l1, m1, _⟩ := l.mark ha hr
  refine ⟨l1, m1, noMore p.vis, ?_⟩
  cases o with
  | none => exact .inr (p.calm rfl)
  | some r =>
    refine .inl ?_
    obtain ⟨b0, hb0⟩ := Whole.isBase_base ha
    rw [← l.vis.old a (by rw [hb0]; simp)]
    exact p.flag

theorem loop_types [K.Rec] {h0 : St} {n : Nat} : ∀ (l : List (String × Addr)) (h h' : St), Looping K h0 h → (∀ e ∈ l, IsBase h0 e.2) →
    M.forEach (fun ka : String × Addr => M.bind (GoRaml.mark n ka.2) fun _ => M.ret ()) l h = (.ok (), h') →
    Looping K h0 h' ∧ Marked (There h0) h h' ∧ NoMore h h' ∧ ∀ e ∈ l, Rest h0 h' e.2
  | [], h, h', lp, _, hr => by
    cases hr
    exact ⟨lp, .refl _ _, fun _ h => h, fun e he => by cases he⟩
  | e :: l, h, h', lp, hl, hr => by
    unfold M.forEach at hr
    obtain ⟨_, h1, e1, e2⟩ := M.bind_ok.1 hr
    obtain ⟨o, h2, e3, e4⟩ := M.bind_ok.1 e1
    cases e4
    obtain ⟨l1, m1, v1, f1⟩ := loop_mark lp (hl e (by simp)) e3
    obtain ⟨l2, m2, v2, f2⟩ := loop_types l h1 h' l1 (fun e' he' => hl e' (by simp [he'])) e2
    refine ⟨l2, m1.trans m2 lp.inv.exists, v1.trans v2, fun e' he' => ?_⟩
    rcases List.mem_cons.1 he' with rfl | he'
    · exact f1.marked m2 v2
    · exact f2 e' he'

theorem loop_fragment [K.Rec] {h0 : St} {n : Nat} {f : FragRef} {h h' : St} (lp : Looping K h0 h) (hw : Wf K h0) (hf : FragThere h0 f)
    (hr : markFragment n f h = (.ok (), h')) : Looping K h0 h' ∧ Marked (There h0) h h' ∧ NoMore h h' ∧ ∀ a ∈ typesOf h0 f, Rest h0 h' a := by
  cases f with
  | library i =>
    have hl : h0.libs[i]? = some _ := List.getElem?_eq_getElem hf
    simp only [markFragment, lp.bigger.libs, hl] at hr
    have hin := hw.lib _ (List.getElem_mem hf)
    obtain ⟨l1, m1, v1, f1⟩ := loop_types _ _ _ lp (fun e he => by
      rcases List.mem_append.1 he with h | h
      · exact hin.annotationTypes _ h
      · exact hin.types _ h) hr
    refine ⟨l1, m1, v1, fun a ha => ?_⟩
    simp only [typesOf, hl, Option.map_some, Option.getD_some, List.mem_map] at ha
    obtain ⟨e, he, rfl⟩ := ha
    exact f1 e he
  | dataType i =>
    have hl : h0.dts[i]? = some _ := List.getElem?_eq_getElem hf
    have hl' : h.dts[i]? = some h0.dts[i] := by
      obtain ⟨t, e⟩ := lp.bigger.dts
      rw [← e, List.getElem?_append_left hf]; exact hl
    obtain ⟨a, ha, hb⟩ := (hw.dt _ (List.getElem_mem hf)).shape
    simp only [markFragment, hl', Option.bind_some, ha] at hr
    obtain ⟨o, h2, e3, e4⟩ := M.bind_ok.1 hr
    cases e4
    obtain ⟨l1, m1, v1, f1⟩ := loop_mark lp hb e3
    refine ⟨l1, m1, v1, fun x hx => ?_⟩
    simp only [typesOf, hl, Option.bind_some, ha, Option.map_some, Option.getD_some, List.mem_singleton] at hx
    subst hx
    exact f1
  | namedExample i =>
    cases hr
    exact ⟨lp, .refl _ _, fun _ h => h, fun a ha => by cases ha⟩

theorem loop_fragments [K.Rec] {h0 : St} {n : Nat} (hw : Wf K h0) : ∀ (fs : List FragRef) (h h' : St), Looping K h0 h → (∀ f ∈ fs, FragThere h0 f) →
    markFragments n fs h = (.ok (), h') → Looping K h0 h' ∧ Marked (There h0) h h' ∧ NoMore h h' ∧ ∀ f ∈ fs, ∀ a ∈ typesOf h0 f, Rest h0 h' a
  | [], h, h', lp, _, hr => by
    cases hr
    exact ⟨lp, .refl _ _, fun _ h => h, fun e he => by cases he⟩
  | f :: fs, h, h', lp, hf, hr => by
    unfold markFragments M.forEach at hr
    obtain ⟨_, h1, e1, e2⟩ := M.bind_ok.1 hr
    obtain ⟨l1, m1, v1, f1⟩ := loop_fragment lp hw (hf f (by simp)) e1
    obtain ⟨l2, m2, v2, f2⟩ := loop_fragments hw fs h1 h' l1 (fun e' he' => hf e' (by simp [he'])) e2
    refine ⟨l2, m1.trans m2 lp.inv.exists, v1.trans v2, fun e' he' => ?_⟩
    rcases List.mem_cons.1 he' with rfl | he'
    · exact fun a ha => (f1 a ha).marked m2 v2
    · exact f2 e' he'

/-- The parts of a heap that matter for marking. -/
theorem Calm.same {h h' : St} (e1 : h'.bases = h.bases) (e2 : h'.pmaps = h.pmaps) (e3 : h'.ppmaps = h.ppmaps) (e4 : h'.slices = h.slices) {x : Addr} (c : Calm h x) : Calm h' x := by
  have eb : ∀ x, h'.base x = h.base x := fun x => by simp only [St.base, e1]
  have ep : ∀ i, h'.props i = h.props i := fun i => by cases i <;> simp only [St.props, e2]
  have eq : ∀ i, h'.patProps i = h.patProps i := fun i => by cases i <;> simp only [St.patProps, e3]
  have es : ∀ i, h'.slice i = h.slice i := fun i => by cases i <;> simp only [St.slice, e4]
  induction c with
  | @intro x b hb hu hv _ ih =>
    refine .intro ((eb x).trans hb) hu hv fun y hy => ih y ?_
    cases hy with
    | refers hr =>
      obtain ⟨s, h1, h2⟩ := hr
      refine .refers ⟨s, by simpa only [St.shapeAt, eb] using h1, ?_⟩
      cases h2 with
      | items h => exact .items h
      | property h => exact .property (ep _ ▸ h)
      | pattern h => exact .pattern (eq _ ▸ h)
      | member h => exact .member (es _ ▸ h)
    | facet h1 h2 => exact .facet ((eb _).symm.trans h1) (ep _ ▸ h2)

theorem unwrapShapes_rest [K.Rec] {s s' : St} {n : Nat} {fs fs' : List FragRef} (hw : Wf K (cleared s)) (hf : ∀ f ∈ fs, FragThere (cleared s) f)
    (hf' : ∀ f ∈ fs', FragThere (cleared s) f) (hall : ∀ e ∈ s.fragments, e.2 ∈ fs') (hx : ∀ d ∈ s.domainExts, ∃ a, d.definedBy = some a)
    (hr : unwrapShapes n fs fs' s = (.ok (), s')) : ∀ a, DeclaredType s' a → LeftVisited s' a ∨ Calm s' a := by
  unfold unwrapShapes at hr
  obtain ⟨_, s0, e0, hr⟩ := M.bind_ok.1 hr
  cases e0
  have hr : (M.bind (unwrapFragments n fs) fun _ => M.bind (markFragments n fs') fun _ => unwrapDomainExtensions) (cleared s) = (.ok (), s') := hr
  obtain ⟨_, s1, e1, hr⟩ := M.bind_ok.1 hr
  obtain ⟨_, s2, e2, hr⟩ := M.bind_ok.1 hr
  have r1 := unwrapFragments_two (n := n) hw hf fun _ h => by cases h
  unfold Sound2 Safe at r1
  rw [e1] at r1
  obtain ⟨⟨w1, d1⟩, k1, _⟩ := r1
  obtain ⟨lp, mk, _, ends⟩ := loop_fragments w1 fs' s1 s2 (.refl w1) (fun f h => (hf' f h).kept k1) e2
  have hexts : s2.domainExts = s.domainExts := lp.bigger.exts.trans k1.exts
  have hrun := unwrapDomainExtensions_run (s := s2) fun d hd' => by
    obtain ⟨a, ha⟩ := hx d (hexts ▸ hd')
    obtain ⟨b, hb⟩ := Whole.isBase_base (lp.wf.exts d hd' a ha)
    exact ⟨a, b, ha, hb⟩
  rw [hr] at hrun
  obtain ⟨_, _, _, e', p3, p4, p5, p6, p7⟩ := hrun
  simp only at p3 p7
  subst p3
  have hfr : s2.fragments = s.fragments := lp.bigger.fragments.trans k1.fragments
  intro a ha
  obtain ⟨k, f, h1, h2⟩ := declared_typesOf ha
  have hin : f ∈ fs' := hall (k, f) (by rw [← hfr]; exact h1)
  have h2' : a ∈ typesOf s2 f := h2
  rw [typesOf_bigger lp.bigger ((hf' f hin).kept k1)] at h2'
  rcases ends f hin a h2' with hv | hv
  · left
    obtain ⟨b, hb⟩ : ∃ b, s1.base a = some b := by
      cases hb : s1.base a with
      | none => rw [visitedAt_none hb] at hv; cases hv
      | some b => exact ⟨b, rfl⟩
    have := lp.vis.old a (by rw [hb]; simp)
    rw [hv] at this
    unfold visitedAt at this
    obtain ⟨b', h3, h4⟩ := Option.map_eq_some_iff.1 this
    exact ⟨b', h3, h4⟩
  · exact .inr (Calm.same (h := s2) (h' := { s2 with domainExts := e' }) rfl rfl rfl rfl hv)

end GoRaml.Still
