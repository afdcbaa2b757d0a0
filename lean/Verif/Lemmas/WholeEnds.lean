import Verif.Lemmas.WholeLoaded

/-!
# What a successful run over all fragments leaves behind
-/

namespace GoRaml.Whole

open GoRaml GoRaml.Spec GoRaml.Load

variable {K : Par}

/-- The types of a fragment, in the order in which marking visits them. -/
def typesOf (h : St) : FragRef → List Addr
  | .library i => ((h.libs[i]?).map fun l => (l.annotationTypes ++ l.types).map (·.2)).getD []
  | .dataType i => (((h.dts[i]?).bind (·.shape)).map fun a => [a]).getD []
  | .namedExample _ => []

theorem mark_ok_unwrapped {n : Nat} {a : Addr} {h h' : St} {o : Option Addr} (hr : mark n a h = (.ok o, h')) : ∃ b, h.base a = some b ∧ b.unwrapped = true := by
  cases n with
  | zero => cases hr
  | succ n =>
    unfold mark at hr
    obtain ⟨b, h1, e1, e2⟩ := M.bind_ok.1 hr
    obtain ⟨hb, rfl⟩ := getBase_ok.1 e1
    refine ⟨b, hb, ?_⟩
    cases hu : b.unwrapped with
    | true => rfl
    | false => simp [hu, M.err] at e2

/-- Marked types: unwrapped, and left visited or without infinite chains. -/
def EndsAt (h0 h' : St) (a : Addr) : Prop := (∃ b, h'.base a = some b ∧ b.unwrapped = true) ∧ (visitedAt h0 a = some true ∨ Fin h' a)

theorem EndsAt.marked {C : Addr → Prop} {h0 h h' : St} (m : Marked C h h') {a : Addr} (e : EndsAt h0 h a) : EndsAt h0 h' a := by
  obtain ⟨⟨b, h1, h2⟩, h3⟩ := e
  obtain ⟨s, v, h4, _⟩ := m.old a b h1
  exact ⟨⟨_, h4, h2⟩, h3.imp id fun f => f.marked m⟩

/-- The state of the loop: only marking has happened since `h0`. -/
structure Looping (K : Par) (h0 h : St) : Prop where
  inv : MInv h0 h
  vis : SameVis h0 h
  wf : Wf K h
  bigger : Bigger h0 h

theorem Looping.refl {h0 : St} (hw : Wf K h0) : Looping K h0 h0 :=
  ⟨⟨.refl _ _, fun y hy => by rw [visitedAt_none hy]; simp⟩, .refl _, hw, .refl _⟩

theorem sameVis_fwd {C : Addr → Prop} {h0 h h' : St} (s : SameVis h0 h) (m : Marked C h0 h) (t : SameVis h h') : SameVis h0 h' := by
  refine ⟨fun x hx => ?_, fun y hy => ?_⟩
  · rw [t.old x ?_, s.old x hx]
    cases hb : h0.base x with
    | none => exact absurd hb hx
    | some b =>
      obtain ⟨_, _, h1, _⟩ := m.old x b hb
      rw [h1]; simp
  · by_cases hn : h.base y = none
    · exact t.fresh y hn
    · rw [t.old y hn]; exact s.fresh y hy

theorem Looping.mark [K.Rec] {h0 h h' : St} {n : Nat} {a : Addr} {o : Option Addr} (l : Looping K h0 h) (ha : IsBase h0 a) (hr : GoRaml.mark n a h = (.ok o, h')) :
    Looping K h0 h' ∧ Marked (There h0) h h' ∧ EndsAt h0 h' a := by
  have p := mark_ends n h a o h' l.inv hr
  have f := mark_fine n a h l.wf (l.bigger.isBase ha)
  unfold Fine Safe at f
  rw [hr] at f
  obtain ⟨b, hb, hu⟩ := mark_ok_unwrapped hr
  obtain ⟨s, v, h4, _⟩ := p.marked.old a b hb
  refine ⟨⟨l.inv.step p.marked p.vis, sameVis_fwd l.vis l.inv.marked p.vis, f.1, l.bigger.trans f.2.1⟩, p.marked, ⟨_, h4, hu⟩, ?_⟩
  cases o with
  | none => exact .inr (p.fin rfl)
  | some r =>
    refine .inl ?_
    obtain ⟨b0, hb0⟩ := isBase_base ha
    rw [← l.vis.old a (by rw [hb0]; simp)]
    exact p.flag

theorem Looping.types [K.Rec] {h0 : St} {n : Nat} : ∀ (l : List (String × Addr)) (h h' : St), Looping K h0 h → (∀ e ∈ l, IsBase h0 e.2) →
    M.forEach (fun ka : String × Addr => M.bind (GoRaml.mark n ka.2) fun _ => M.ret ()) l h = (.ok (), h') →
    Looping K h0 h' ∧ Marked (There h0) h h' ∧ ∀ e ∈ l, EndsAt h0 h' e.2
  | [], h, h', lp, _, hr => by
    cases hr
    exact ⟨lp, .refl _ _, fun e he => by cases he⟩
  | e :: l, h, h', lp, hl, hr => by
    unfold M.forEach at hr
    obtain ⟨_, h1, e1, e2⟩ := M.bind_ok.1 hr
    obtain ⟨o, h2, e3, e4⟩ := M.bind_ok.1 e1
    cases e4
    obtain ⟨l1, m1, f1⟩ := lp.mark (hl e (by simp)) e3
    obtain ⟨l2, m2, f2⟩ := Looping.types l h1 h' l1 (fun e' he' => hl e' (by simp [he'])) e2
    refine ⟨l2, m1.trans m2 lp.inv.exists, fun e' he' => ?_⟩
    rcases List.mem_cons.1 he' with rfl | he'
    · exact f1.marked m2
    · exact f2 e' he'

theorem Looping.fragment [K.Rec] {h0 : St} {n : Nat} {f : FragRef} {h h' : St} (lp : Looping K h0 h) (hw : Wf K h0) (hf : FragThere h0 f)
    (hr : markFragment n f h = (.ok (), h')) : Looping K h0 h' ∧ Marked (There h0) h h' ∧ ∀ a ∈ typesOf h0 f, EndsAt h0 h' a := by
  cases f with
  | library i =>
    have hl : h0.libs[i]? = some _ := List.getElem?_eq_getElem hf
    simp only [markFragment, lp.bigger.libs, hl] at hr
    have hin := hw.lib _ (List.getElem_mem hf)
    obtain ⟨l1, m1, f1⟩ := lp.types _ _ _ (fun e he => by
      rcases List.mem_append.1 he with h | h
      · exact hin.annotationTypes _ h
      · exact hin.types _ h) hr
    refine ⟨l1, m1, fun a ha => ?_⟩
    simp only [typesOf, hl, Option.map_some, Option.getD_some, List.mem_map] at ha
    obtain ⟨e, he, rfl⟩ := ha
    exact f1 e he
  | dataType i =>
    have hl : h0.dts[i]? = some _ := List.getElem?_eq_getElem hf
    have hl' : h.dts[i]? = some h0.dts[i] := by
      obtain ⟨t, e⟩ := lp.bigger.dts
      rw [← e, List.getElem?_append_left hf]; exact hl
    obtain ⟨a, ha, hb⟩ := (hw.dt _ (List.getElem_mem hf)).shape
    simp only [markFragment, hl', Option.bind_some, ha] at hr
    obtain ⟨o, h2, e3, e4⟩ := M.bind_ok.1 hr
    cases e4
    obtain ⟨l1, m1, f1⟩ := lp.mark hb e3
    refine ⟨l1, m1, fun x hx => ?_⟩
    simp only [typesOf, hl, Option.bind_some, ha, Option.map_some, Option.getD_some, List.mem_singleton] at hx
    subst hx
    exact f1
  | namedExample i =>
    cases hr
    exact ⟨lp, .refl _ _, fun a ha => by cases ha⟩

theorem Looping.fragments [K.Rec] {h0 : St} {n : Nat} (hw : Wf K h0) : ∀ (fs : List FragRef) (h h' : St), Looping K h0 h → (∀ f ∈ fs, FragThere h0 f) →
    markFragments n fs h = (.ok (), h') → Looping K h0 h' ∧ Marked (There h0) h h' ∧ ∀ f ∈ fs, ∀ a ∈ typesOf h0 f, EndsAt h0 h' a
  | [], h, h', lp, _, hr => by
    cases hr
    exact ⟨lp, .refl _ _, fun e he => by cases he⟩
  | f :: fs, h, h', lp, hf, hr => by
    unfold markFragments M.forEach at hr
    obtain ⟨_, h1, e1, e2⟩ := M.bind_ok.1 hr
    obtain ⟨l1, m1, f1⟩ := lp.fragment hw (hf f (by simp)) e1
    obtain ⟨l2, m2, f2⟩ := Looping.fragments hw fs h1 h' l1 (fun e' he' => hf e' (by simp [he'])) e2
    refine ⟨l2, m1.trans m2 lp.inv.exists, fun e' he' => ?_⟩
    rcases List.mem_cons.1 he' with rfl | he'
    · exact fun a ha => (f1 a ha).marked m2
    · exact f2 e' he'

/-! ## The annotation types that are stored are unwrapped -/

/-- All stored annotation types are unwrapped. -/
def AnnsDone (s : St) : Prop := ∀ e ∈ s.fragAnnotationTypes, ∀ e' ∈ e.2, doneAt s e'.2

/-- Safe, and the stored annotation types stay unwrapped. -/
abbrev Sound2 (K : Par) (m : M St Unit) (s : St) : Prop := Safe K.X (fun s => Wf K s ∧ AnnsDone s) Kept m s fun _ _ => True

theorem Sound.two {m : M St Unit} {s : St} (h : Sound K m s fun _ _ => True) (ha : AnnsDone (m s).2) : Sound2 K m s := ⟨⟨h.1, ha⟩, h.2.1, h.2.2⟩

theorem doneAt_bases {s s' : St} (e : s'.bases = s.bases) {a : Addr} (h : doneAt s a) : doneAt s' a := by
  simpa [doneAt, St.base, e] using h

theorem annsDone_unwrap {n : Nat} {a : Addr} {s : St} (hw : Wf K s) (hb : IsBase s a) (h : AnnsDone s) : AnnsDone (unwrap n a s).2 := fun x hx y hy =>
  dkeep_unwrap _ n a s (h x (by rw [← (unwrap_fine n a s hw hb).2.1.anns]; exact hx) y hy)

theorem AnnsDone.same {s s' : St} (h : AnnsDone s) (e : s'.bases = s.bases) (f : s'.fragAnnotationTypes = s.fragAnnotationTypes) : AnnsDone s' :=
  fun x hx y hy => doneAt_bases e (h x (f ▸ hx) y hy)

theorem AnnsDone.put {s : St} {name location : String} {a : Addr} (h : AnnsDone s) (ha : doneAt s a) : AnnsDone (Heap.putAnnotationType name location a s).2 := by
  intro e he e' he'
  rcases mem_omap_set he with h1 | h1
  · exact h e h1 e' he'
  · rw [h1] at he'
    rcases mem_omap_set he' with h2 | h2
    · cases hg : OMap.get s.fragAnnotationTypes location with
      | none => rw [hg] at h2; cases h2
      | some m => rw [hg] at h2; exact h _ (mem_get hg) e' h2
    · rw [h2]; exact ha

theorem unwrap_done {n : Nat} {a r : Addr} {s s' : St} (h : unwrap n a s = (.ok r, s')) : doneAt s' a := by
  obtain ⟨b, h1, h2, h3⟩ := Props.c27_marked h
  exact ⟨b, h1, h2, by cases hs : b.shape with | none => exact absurd hs h3 | some s => rfl⟩

theorem unwrapType_two {s : St} {n : Nat} {c : Sect} {i : Nat} {location : String} {ka : String × Addr} (hw : Wf K s) (ha : IsBase s ka.2)
    (hk : ∀ l, s.libs[i]? = some l → ka.1 ∈ names c l) (hd : AnnsDone s) : Sound2 K (unwrapType n c i location ka) s := by
  refine (unwrapType_sound hw ha hk).two ?_
  have hu := annsDone_unwrap (n := n) hw ha hd
  unfold unwrapType
  cases hr : unwrap n ka.2 s with
  | mk o s1 =>
    rw [hr] at hu
    cases o with
    | ok us =>
      have hdone := unwrap_done hr
      obtain ⟨s2, e2, h2, h3⟩ : ∃ s2, setType c i ka.1 us s1 = (.ok (), s2) ∧ s2.bases = s1.bases ∧ s2.fragAnnotationTypes = s1.fragAnnotationTypes := ⟨_, rfl, rfl, rfl⟩
      rw [M.bind_of_ok hr, M.bind_of_ok e2]
      have hs2 := AnnsDone.same hu h2 h3
      unfold M.bind Heap.getBase
      cases hb : s2.base us with
      | none => exact hs2
      | some u =>
        cases c with
        | types => exact hs2
        | annotationTypes => exact hs2.put (doneAt_bases h2 hdone)
    | err _ => simpa only [M.bind, hr] using hu
    | panic _ => simpa only [M.bind, hr] using hu
    | diverge => simpa only [M.bind, hr] using hu

theorem unwrapTypes_two {s : St} {n : Nat} {c : Sect} {i : Nat} {l : Lib} (hw : Wf K s) (hl : ∃ l', s.libs[i]? = some l' ∧ sig l' = sig l)
    (hb : ∀ e ∈ c.of l, IsBase s e.2) (hd : AnnsDone s) : Sound2 K (unwrapTypes n c i l) s := by
  refine Safe.tryEach Kept.refl (fun _ _ _ h k => Kept.trans h k) ⟨hw, hd⟩ fun ka hka s' hw' g => ?_
  refine unwrapType_two hw'.1 (g.isBase (hb ka hka)) (fun l1 h1 => ?_) hw'.2
  obtain ⟨l', h2, h3⟩ := hl
  obtain ⟨l2, h4, h5⟩ := g.lib h2
  rw [h1] at h4
  cases h4
  rw [names_sig (h5.trans h3)]
  exact List.mem_map_of_mem hka

theorem tryBoth_two {s : St} {m m' : M St Unit} (h : Sound2 K m s) (h' : ∀ s', Wf K s' ∧ AnnsDone s' → Kept s s' → Sound2 K m' s') :
    Sound2 K (M.tryBoth m m') s := by
  have tr : ∀ a b c, Kept a b → Kept b c → Kept a c := fun _ _ _ h k => Kept.trans h k
  unfold M.tryBoth M.tryEach
  refine Safe.bind tr (Safe.attempt h) fun r s1 hw1 g1 _ => ?_
  refine Safe.bind tr (Safe.attempt (Q := fun _ _ => True) ?_) fun r' s2 hw2 g2 _ => ?_
  · refine Safe.tryEach Kept.refl tr hw1 fun x hx s' hw' g => ?_
    rw [List.mem_singleton.1 hx]
    exact h' s' hw' (g1.trans g)
  · cases r with
    | ok _ => cases r' <;> first | exact Safe.ret Kept.refl hw2 trivial | exact Safe.err Kept.refl hw2
    | error _ => exact Safe.err Kept.refl hw2

theorem unwrapFragment_two {s : St} {n : Nat} {f : FragRef} (hw : Wf K s) (hf : FragThere s f) (hd : AnnsDone s) : Sound2 K (unwrapFragment n f) s := by
  cases f with
  | library i =>
    have hl : s.libs[i]? = some _ := List.getElem?_eq_getElem hf
    have hin := hw.lib _ (List.getElem_mem hf)
    refine Safe.congr (m := unwrapLibrary n i s.libs[i]) (by simp only [unwrapFragment, hl]) ?_
    refine tryBoth_two (unwrapTypes_two hw ⟨_, hl, rfl⟩ hin.annotationTypes hd) fun s' hw' g => ?_
    exact unwrapTypes_two hw'.1 (g.lib hl) (fun e he => g.isBase (hin.types e he)) hw'.2
  | dataType i =>
    have hl : s.dts[i]? = some _ := List.getElem?_eq_getElem hf
    refine (unwrapFragment_sound hw hf).two ?_
    obtain ⟨a, ha, hb⟩ := (hw.dt _ (List.getElem_mem hf)).shape
    have hu := annsDone_unwrap (n := n) hw hb hd
    simp only [unwrapFragment, hl, unwrapDataType, ha]
    cases hr : unwrap n a s with
    | mk o s1 =>
      rw [hr] at hu
      cases o with
      | ok us =>
        rw [M.bind_of_ok hr]
        unfold M.bind Heap.getBase
        simp only [M.modify]
        split
        · rename_i h; split at h <;> cases h <;> exact hu.same rfl rfl
        · rename_i h; split at h <;> cases h <;> exact hu.same rfl rfl
        · rename_i h; split at h <;> cases h <;> exact hu.same rfl rfl
        · rename_i h; split at h <;> cases h <;> exact hu.same rfl rfl
      | err _ => simpa only [M.bind, hr] using hu
      | panic _ => simpa only [M.bind, hr] using hu
      | diverge => simpa only [M.bind, hr] using hu
  | namedExample i => exact (unwrapFragment_sound hw hf).two hd

theorem unwrapFragments_two {s : St} {n : Nat} {fs : List FragRef} (hw : Wf K s) (hf : ∀ f ∈ fs, FragThere s f) (hd : AnnsDone s) :
    Sound2 K (unwrapFragments n fs) s :=
  Safe.tryEach Kept.refl (fun _ _ _ h k => Kept.trans h k) ⟨hw, hd⟩ fun f h _ hw' g => unwrapFragment_two hw'.1 ((hf f h).kept g) hw'.2

/-! ## The whole -/

theorem Fin.exts {h : St} {x : Addr} (e : List DomainExt) (f : Fin h x) : Fin { h with domainExts := e } x := by
  induction f with
  | @intro x b hb hu _ ih =>
    refine .intro hb hu fun y hy => ih y ?_
    cases hy with
    | refers hr =>
      obtain ⟨s, h1, h2⟩ := hr
      refine .refers ⟨s, h1, ?_⟩
      cases h2 with
      | items h => exact .items h
      | property h => exact .property h
      | pattern h => exact .pattern h
      | member h => exact .member h
    | facet h1 h2 => exact .facet h1 h2

theorem component_edge {h : St} {x y : Addr} (c : Component h x y) : MarkEdge h x y := by
  obtain ⟨b, hb, ⟨s, h1, h2⟩ | ⟨e, h1, rfl⟩⟩ := c
  · exact .refers ⟨s, by simp [St.shapeAt, hb, h1], h2⟩
  · exact .facet hb h1

theorem Fin.noInfinite {h : St} {x : Addr} (f : Fin h x) : NoInfiniteComponents h x := by
  induction f with
  | @intro x b _ _ _ ih =>
    intro g hg
    by_cases hc : Component h (g 0) (g 1)
    · obtain ⟨n, hn⟩ := ih _ (component_edge (hg ▸ hc)) (fun k => g (k + 1)) rfl
      exact ⟨n + 1, hn⟩
    · exact ⟨0, hc⟩

theorem Fin.components {h : St} {x : Addr} (f : Fin h x) : FullyUnwrapped h x := by
  induction f with
  | @intro x b hb hu _ ih =>
    intro y hy
    cases hy with
    | refl => exact ⟨b, hb, hu⟩
    | step hc hw => exact ih _ (component_edge hc) y hw

theorem declared_typesOf {h : St} {a : Addr} (hd : DeclaredType h a) : ∃ k f, (k, f) ∈ h.fragments ∧ a ∈ typesOf h f := by
  cases hd with
  | @type k i l e hk hl he =>
    refine ⟨k, _, hk, ?_⟩
    simp only [typesOf, hl, Option.map_some, Option.getD_some, List.mem_map]
    exact ⟨e, List.mem_append.2 (.inr he), rfl⟩
  | @annotationType k i l e hk hl he =>
    refine ⟨k, _, hk, ?_⟩
    simp only [typesOf, hl, Option.map_some, Option.getD_some, List.mem_map]
    exact ⟨e, List.mem_append.2 (.inl he), rfl⟩
  | @dataType k i d _ hk hl he =>
    refine ⟨k, _, hk, ?_⟩
    simp [typesOf, hl, he]

theorem typesOf_bigger {h h' : St} (g : Bigger h h') {f : FragRef} (hf : FragThere h f) : typesOf h' f = typesOf h f := by
  cases f with
  | library i => simp only [typesOf, g.libs]
  | dataType i =>
    obtain ⟨t, e⟩ := g.dts
    simp only [typesOf]
    rw [← e, List.getElem?_append_left hf]
  | namedExample i => rfl

/-- What a successful `UnwrapShapes` leaves behind. -/
structure Unwrapped (h : St) : Prop where
  declared : ∀ a, DeclaredType h a → (∃ b, h.base a = some b ∧ b.unwrapped = true) ∧ (LeftVisited h a ∨ (NoInfiniteComponents h a ∧ FullyUnwrapped h a))
  annotations : ∀ d ∈ h.domainExts, ∀ a, d.definedBy = some a → ∃ b, h.base a = some b ∧ b.unwrapped = true

theorem unwrapShapes_end [K.Rec] {s s' : St} {n : Nat} {fs fs' : List FragRef} (hw : Wf K (cleared s)) (hf : ∀ f ∈ fs, FragThere (cleared s) f)
    (hf' : ∀ f ∈ fs', FragThere (cleared s) f) (hall : ∀ e ∈ s.fragments, e.2 ∈ fs') (hx : ∀ d ∈ s.domainExts, ∃ a, d.definedBy = some a)
    (hr : unwrapShapes n fs fs' s = (.ok (), s')) : Unwrapped s' := by
  unfold unwrapShapes at hr
  obtain ⟨_, s0, e0, hr⟩ := M.bind_ok.1 hr
  cases e0
  have hr : (M.bind (unwrapFragments n fs) fun _ => M.bind (markFragments n fs') fun _ => unwrapDomainExtensions) (cleared s) = (.ok (), s') := hr
  obtain ⟨_, s1, e1, hr⟩ := M.bind_ok.1 hr
  obtain ⟨_, s2, e2, hr⟩ := M.bind_ok.1 hr
  have r1 := unwrapFragments_two (n := n) hw hf fun _ h => by cases h
  unfold Sound2 Safe at r1
  rw [e1] at r1
  obtain ⟨⟨w1, d1⟩, k1, _⟩ := r1
  obtain ⟨lp, mk, ends⟩ := Looping.fragments w1 fs' s1 s2 (.refl w1) (fun f h => (hf' f h).kept k1) e2
  have hexts : s2.domainExts = s.domainExts := lp.bigger.exts.trans k1.exts
  have hrun := unwrapDomainExtensions_run (s := s2) fun d hd' => by
    obtain ⟨a, ha⟩ := hx d (hexts ▸ hd')
    obtain ⟨b, hb⟩ := isBase_base (lp.wf.exts d hd' a ha)
    exact ⟨a, b, ha, hb⟩
  rw [hr] at hrun
  obtain ⟨_, _, _, e', p3, p4, p5, p6, p7⟩ := hrun
  simp only at p3 p7
  subst p3
  have hfr : s2.fragments = s.fragments := lp.bigger.fragments.trans k1.fragments
  refine ⟨fun a ha => ?_, fun d hd a ha => ?_⟩
  · obtain ⟨k, f, h1, h2⟩ := declared_typesOf ha
    have hin : f ∈ fs' := hall (k, f) (by rw [← hfr]; exact h1)
    have h2' : a ∈ typesOf s2 f := h2
    rw [typesOf_bigger lp.bigger ((hf' f hin).kept k1)] at h2'
    obtain ⟨hu, hv⟩ := ends f hin a h2'
    refine ⟨hu, ?_⟩
    rcases hv with hv | hv
    · left
      obtain ⟨b, hb⟩ : ∃ b, s1.base a = some b := by
        cases hb : s1.base a with
        | none => rw [visitedAt_none hb] at hv; cases hv
        | some b => exact ⟨b, rfl⟩
      have := lp.vis.old a (by rw [hb]; simp)
      rw [hv] at this
      unfold visitedAt at this
      obtain ⟨b', h3, h4⟩ := Option.map_eq_some_iff.1 this
      exact ⟨b', h3, h4⟩
    · exact .inr ⟨(hv.exts e').noInfinite, (hv.exts e').components⟩
  · obtain ⟨i, hi⟩ := List.mem_iff_getElem?.1 hd
    have hlen := congrArg List.length p4
    simp only [List.length_map] at hlen
    have hi' : i < s2.domainExts.length := hlen ▸ (List.getElem?_eq_some_iff.1 hi).1
    obtain ⟨a0, _, b, m, h1, h2, h3⟩ := p7 (by first | rfl | trivial) i (by simpa using hi') _ d (List.getElem?_eq_getElem hi') hi
    rw [ha] at h3
    have hm := mem_get h3.symm
    rw [lp.bigger.anns] at h2
    obtain ⟨x, q1, q2, _⟩ := d1 _ (mem_get h2) _ hm
    obtain ⟨sh, v, q4, _⟩ := mk.old _ x q1
    exact ⟨_, q4, q2⟩

end GoRaml.Whole
