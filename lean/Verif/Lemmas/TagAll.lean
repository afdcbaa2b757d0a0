import Verif.Lemmas.Tag
import Verif.Lemmas.KinTop
import Verif.Lemmas.WholeExt

/-!
# What the table of annotation types holds after unwrapping all fragments
-/

namespace GoRaml.Tag

open GoRaml GoRaml.Spec

/-- Names and locations of types are kept. -/
def Labels (h h' : St) : Prop := ∀ a x, h.base a = some x → ∃ y, h'.base a = some y ∧ y.name = x.name ∧ y.location = x.location

theorem Labels.refl (h : St) : Labels h h := fun _ x hx => ⟨x, hx, rfl, rfl⟩

theorem Labels.trans {x y z : St} (h1 : Labels x y) (h2 : Labels y z) : Labels x z := fun a p hp => by
  obtain ⟨q, k1, k2, k3⟩ := h1 a p hp
  obtain ⟨r, k4, k5, k6⟩ := h2 a q k1
  exact ⟨r, k4, k5.trans k2, k6.trans k3⟩

theorem Labels.same {h h' : St} (e : h'.bases = h.bases) : Labels h h' := fun a x hx => ⟨x, by rw [← hx]; simp only [St.base, e], rfl, rfl⟩

/-- Every type in the table is an annotation type that a library of the fragments declared at first, under the location of the library. -/
def Table (s0 s : St) : Prop := ∀ loc m nm x, OMap.get s.fragAnnotationTypes loc = some m → OMap.get m nm = some x →
  ∃ i l k, FragRef.library i ∈ s0.fragments.map (·.2) ∧ s0.libs[i]? = some l ∧ l.location = loc ∧ (k, x) ∈ l.annotationTypes

/-- Labels and the table so far, with the libraries still to come as they were. -/
structure Going (s0 s : St) (rest : List FragRef) : Prop where
  labels : Labels s0 s
  table : Table s0 s
  libs : ∀ i, FragRef.library i ∈ rest → s.libs[i]? = s0.libs[i]?

theorem Table.put {s0 s : St} (h : Table s0 s) {nm loc : String} {x : Addr} (hx : ∃ i l k, FragRef.library i ∈ s0.fragments.map (·.2) ∧ s0.libs[i]? = some l ∧ l.location = loc ∧
    (k, x) ∈ l.annotationTypes) {s' : St} (e : s'.fragAnnotationTypes = putTypeInto s.fragAnnotationTypes nm loc x) : Table s0 s' := by
  intro loc' m nm' y h1 h2
  rw [e, putTypeInto, OMap.get_set] at h1
  split at h1
  · rename_i hl
    subst hl
    cases h1
    rw [OMap.get_set] at h2
    split at h2
    · cases h2; exact hx
    · cases hg : OMap.get s.fragAnnotationTypes loc' with
      | none => rw [hg] at h2; cases h2
      | some m0 => rw [hg] at h2; exact h loc' m0 nm' y hg h2
  · exact h loc' m nm' y h1 h2

theorem unwrapType_going {s0 s s' : St} {rest : List FragRef} {n i : Nat} {c : Sect} {loc : String} {ka : String × Addr} (g : Going s0 s rest) (hi : FragRef.library i ∉ rest)
    (hx : c = .annotationTypes → ∃ i l k, FragRef.library i ∈ s0.fragments.map (·.2) ∧ s0.libs[i]? = some l ∧ l.location = loc ∧ (k, ka.2) ∈ l.annotationTypes)
    (e : unwrapType n c i loc ka s = (.ok (), s')) : Going s0 s' rest := by
  unfold unwrapType at e
  obtain ⟨us, s1, e1, ea⟩ := M.bind_ok.1 e
  clear e
  obtain ⟨_, s2, e2, eb⟩ := M.bind_ok.1 ea
  clear ea
  obtain ⟨u, s3, e3, ec⟩ := M.bind_ok.1 eb
  clear eb
  have k : NKeep s s1 := by have := nkeep_unwrap n ka.2 s; rw [e1] at this; exact this
  have hb : s3 = s2 := by
    unfold Heap.getBase at e3
    cases h : s2.base us with
    | none => rw [h] at e3; cases e3
    | some b => rw [h] at e3; cases e3; rfl
  subst hb
  cases e2
  have lib : ∀ j, FragRef.library j ∈ rest → (s1.libs.modify i fun l => match c with
      | .types => { l with types := OMap.set l.types ka.1 us }
      | .annotationTypes => { l with annotationTypes := OMap.set l.annotationTypes ka.1 us })[j]? = s0.libs[j]? := fun j hj => by
    rw [List.getElem?_modify]
    have : i ≠ j := fun h => hi (h ▸ hj)
    simp only [this, if_false, k.libs]
    exact (by simpa using g.libs j hj)
  have tab : Table s0 s1 := fun loc m nm x h1 h2 => g.table loc m nm x (k.anns ▸ h1) h2
  cases c with
  | types =>
    cases ec
    exact ⟨g.labels.trans (Labels.trans k.base (Labels.same rfl)), tab, lib⟩
  | annotationTypes =>
    cases ec
    exact ⟨g.labels.trans (Labels.trans k.base (Labels.same rfl)), tab.put (hx rfl) rfl, lib⟩

theorem tryEach_going {α : Type} {f : α → M St Unit} {P : St → Prop} : ∀ (l : List α) {s s' : St}, (∀ x ∈ l, ∀ s s', P s → f x s = (.ok (), s') → P s') → P s →
    M.tryEach f l s = (.ok (), s') → P s'
  | [], _, _, _, p, e => by cases e; exact p
  | x :: l, s, s', h, p, e => by
    obtain ⟨s1, e1, e2⟩ := Kin.tryEach_ok e
    exact tryEach_going l (fun y hy => h y (List.mem_cons_of_mem _ hy)) (h x List.mem_cons_self s s1 p e1) e2

/-- Each library is in the list at most once. -/
def Once (fs : List FragRef) : Prop := fs.Pairwise fun f g => ∀ i, f = .library i → g ≠ .library i

theorem once_cons {f : FragRef} {fs : List FragRef} (h : Once (f :: fs)) : (∀ i, f = .library i → FragRef.library i ∉ fs) ∧ Once fs :=
  ⟨fun i hi hm => (List.pairwise_cons.1 h).1 _ hm i hi rfl, (List.pairwise_cons.1 h).2⟩

theorem unwrapFragment_going {s0 s s' : St} {rest : List FragRef} {n : Nat} {f : FragRef} (hm : f ∈ s0.fragments.map (·.2)) (g : Going s0 s (f :: rest)) (hf : ∀ i, f = .library i → FragRef.library i ∉ rest)
    (e : unwrapFragment n f s = (.ok (), s')) : Going s0 s' rest := by
  have g' : Going s0 s rest := ⟨g.labels, g.table, fun i hi => g.libs i (List.mem_cons_of_mem _ hi)⟩
  cases f with
  | library i =>
    cases hl : s.libs[i]? with
    | none => simp only [unwrapFragment, hl] at e; cases e
    | some l =>
      simp only [unwrapFragment, hl] at e
      have hl0 : s0.libs[i]? = some l := (g.libs i List.mem_cons_self).symm.trans hl
      replace e : M.tryEach (fun c => unwrapTypes n c i l) [.annotationTypes, .types] s = (.ok (), s') := e
      refine tryEach_going (P := fun s => Going s0 s rest) _ (fun c _ s s' g e => tryEach_going (P := fun s => Going s0 s rest) _ (fun ka hka s s' g e =>
        unwrapType_going g (hf i rfl) (fun hc => ?_) e) g e) g' e
      subst hc
      exact ⟨i, l, ka.1, hm, hl0, rfl, hka⟩
  | dataType i =>
    cases hd : s.dts[i]? with
    | none => simp only [unwrapFragment, hd] at e; cases e
    | some d =>
      simp only [unwrapFragment, hd] at e
      unfold unwrapDataType at e
      cases ha : d.shape with
      | none => rw [ha] at e; cases e
      | some a =>
        rw [ha] at e
        obtain ⟨us, s1, e1, ea⟩ := M.bind_ok.1 e
        clear e
        obtain ⟨_, s2, e2, eb⟩ := M.bind_ok.1 ea
        clear ea
        obtain ⟨u, s3, e3, ec⟩ := M.bind_ok.1 eb
        clear eb
        have k : NKeep s s1 := by have := nkeep_unwrap n a s; rw [e1] at this; exact this
        have hb : s3 = s2 := by
          unfold Heap.getBase at e3
          cases h : s2.base us with
          | none => rw [h] at e3; cases e3
          | some b => rw [h] at e3; cases e3; rfl
        subst hb
        cases e2
        cases ec
        exact ⟨g'.labels.trans (Labels.trans k.base (Labels.same rfl)), fun loc m nm x h1 h2 => g'.table loc m nm x (k.anns ▸ h1) h2,
          fun j hj => (congrArg (·[j]?) k.libs).trans (g'.libs j hj)⟩
  | namedExample i => cases e; exact g'

theorem unwrapFragments_going {s0 : St} {n : Nat} : ∀ (fs : List FragRef) {s s' : St}, (∀ f ∈ fs, f ∈ s0.fragments.map (·.2)) → Once fs → Going s0 s fs →
    unwrapFragments n fs s = (.ok (), s') → Going s0 s' []
  | [], _, _, _, _, g, e => by cases e; exact g
  | f :: fs, s, s', hm, hn, g, e => by
    obtain ⟨s1, e1, e2⟩ := Kin.tryEach_ok e
    have hn := once_cons hn
    exact unwrapFragments_going fs (fun x hx => hm x (List.mem_cons_of_mem _ hx)) hn.2 (unwrapFragment_going (hm f List.mem_cons_self) g hn.1 e1) e2

/-- After a successful `UnwrapShapes`, in which each fragment is visited once: names and locations of types are kept, and the type of an annotation is one that a library declared at first
as an annotation type, at the location of the annotation type it was for, or nil. -/
theorem unwrapShapes_exts {K : Whole.Par} [K.Rec] {s s' : St} {n : Nat} {fs fs' : List FragRef} (hw : Whole.Wf K (Whole.cleared s)) (hm : ∀ f ∈ fs, f ∈ s.fragments.map (·.2))
    (hn : Once fs) (hf : ∀ f ∈ fs, Whole.FragThere (Whole.cleared s) f) (hf' : ∀ f ∈ fs', Whole.FragThere (Whole.cleared s) f)
    (hx : ∀ d ∈ s.domainExts, ∃ a, d.definedBy = some a) (hr : unwrapShapes n fs fs' s = (.ok (), s')) :
    Labels s s' ∧ ∀ d ∈ s'.domainExts, ∀ x, d.definedBy = some x → ∃ i l k, FragRef.library i ∈ s.fragments.map (·.2) ∧ s.libs[i]? = some l ∧ (k, x) ∈ l.annotationTypes := by
  unfold unwrapShapes at hr
  obtain ⟨_, s0, e0, hr⟩ := M.bind_ok.1 hr
  cases e0
  have hr : (M.bind (unwrapFragments n fs) fun _ => M.bind (markFragments n fs') fun _ => unwrapDomainExtensions) (Whole.cleared s) = (.ok (), s') := hr
  obtain ⟨_, s1, e1, hr⟩ := M.bind_ok.1 hr
  obtain ⟨_, s2, e2, hr⟩ := M.bind_ok.1 hr
  have r1 := Whole.unwrapFragments_two (n := n) hw hf fun _ h => by cases h
  unfold Whole.Sound2 Whole.Safe at r1
  rw [e1] at r1
  obtain ⟨⟨w1, _⟩, k1, _⟩ := r1
  obtain ⟨lp, mk, _⟩ := Whole.Looping.fragments w1 fs' s1 s2 (.refl w1) (fun f h => (hf' f h).kept k1) e2
  have hexts : s2.domainExts = s.domainExts := lp.bigger.exts.trans k1.exts
  have hrun := Whole.unwrapDomainExtensions_run (s := s2) fun d hd' => by
    obtain ⟨a, ha⟩ := hx d (hexts ▸ hd')
    obtain ⟨b, hb⟩ := Whole.isBase_base (lp.wf.exts d hd' a ha)
    exact ⟨a, b, ha, hb⟩
  rw [hr] at hrun
  obtain ⟨_, _, _, e', p3, p4, p5, p6, p7⟩ := hrun
  simp only at p3 p7
  subst p3
  have g := unwrapFragments_going (s0 := s) (s := Whole.cleared s) fs hm hn
    ⟨Labels.same rfl, fun _ _ _ _ (h : OMap.get ([] : OMap (OMap Addr)) _ = some _) => (by simp [OMap.get] at h), fun _ _ => rfl⟩ e1
  refine ⟨g.labels.trans fun a x hx => ?_, fun d hd x hd' => ?_⟩
  · obtain ⟨q, v, h1, _⟩ := mk.old a x hx
    exact ⟨_, h1, rfl, rfl⟩
  · obtain ⟨i, hi⟩ := List.mem_iff_getElem?.1 hd
    have hlen : e'.length = s2.domainExts.length := by have := congrArg List.length p4; simpa using this
    have hlt : i < s2.domainExts.length := hlen ▸ (List.getElem?_eq_some_iff.1 hi).1
    obtain ⟨a, _, b, m, h1, h2, h3⟩ := p7 trivial i (List.mem_range.2 hlt) _ d (List.getElem?_eq_getElem hlt) hi
    have hanns : s2.fragAnnotationTypes = s1.fragAnnotationTypes := lp.bigger.anns
    rw [hanns] at h2
    obtain ⟨i, l, k, q1, q2, _, q3⟩ := g.table b.location m b.name x h2 (h3 ▸ hd')
    exact ⟨i, l, k, q1, q2, q3⟩

end GoRaml.Tag
